import Verif.Spec.Settings
import Verif.Proofs.ListAux
/-!
# C59: the algorithm and the mutation rate of a run
-/

namespace Gapp.Props
open Gapp.Model Gapp.Spec

variable {Alg R : Type}

/-- The constructors that do what their documentation says about the algorithm. -/
def GaCtor.AlgorithmOk : GaCtor Alg R → Prop
  | .algorithm none => False
  | .operators _ => False
  | _ => True

theorem gaHistory_append (defaultRate : Nat → R) (r0 : R) (c : GaCtor Alg R) (ops : List (GaOp Alg R)) (op : GaOp Alg R) :
    gaHistory defaultRate r0 c (ops ++ [op]) = (gaHistory defaultRate r0 c ops).step defaultRate op := by simp [gaHistory]

theorem choice_append (c : GaCtor Alg R) (ops : List (GaOp Alg R)) (op : GaOp Alg R) : Choice.after c (ops ++ [op]) = (Choice.after c ops).step op := by
  simp [Choice.after]

/-- The flag of the settings agrees with the choice. -/
theorem algorithm_inv (defaultRate : Nat → R) (r0 : R) (c : GaCtor Alg R) (hc : GaCtor.AlgorithmOk c) (ops : List (GaOp Alg R)) :
    (gaHistory defaultRate r0 c ops).useDefaultAlgorithm = (Choice.after c ops).algorithm.isNone ∧
      ∀ a, (Choice.after c ops).algorithm = some a → (gaHistory defaultRate r0 c ops).algorithm = .user a := by
  induction ops using Gapp.ListAux.snoc_induction with
  | nil =>
    cases c with
    | default => exact ⟨rfl, fun a h => by cases h⟩
    | algorithm a =>
      cases a with
      | none => exact hc.elim
      | some a => exact ⟨rfl, fun b h => by cases h; rfl⟩
    | operatorPtrs r => exact ⟨rfl, fun a h => by cases h⟩
    | operators r => exact hc.elim
    | all a r =>
      cases a with
      | none => exact ⟨rfl, fun b h => by cases h⟩
      | some a => exact ⟨rfl, fun b h => by cases h; rfl⟩
  | append_singleton ops op ih =>
    rw [gaHistory_append, choice_append]
    obtain ⟨h1, h2⟩ := ih
    generalize gaHistory defaultRate r0 c ops = s at *
    generalize Choice.after c ops = ch at *
    cases op with
    | algorithm a =>
      cases a with
      | none => exact ⟨rfl, fun b h => by cases h⟩
      | some a => exact ⟨rfl, fun b h => by cases h; rfl⟩
    | mutationMethod r => exact ⟨h1, h2⟩
    | mutationCallable r => exact ⟨h1, h2⟩
    | mutationRate r => exact ⟨h1, h2⟩
    | solve numObj chromLen =>
      have h3 : ∀ a, ch.algorithm = some a → s.useDefaultAlgorithm = false := fun a h => by rw [h1, h]; rfl
      simp only [GaSettings.step, Choice.step]
      constructor
      · split <;> split <;> simp_all
      · intro a ha
        have := h3 a ha
        simp only [this, Bool.false_eq_true, if_false]
        split <;> exact h2 a ha

/-- **C59**, for the constructors that allow it: in every run, after every history of calls and earlier runs, the algorithm used is the last one the user chose, or the default for the number
of objectives of this run's fitness function if the choice was left to the library. -/
theorem C59_algorithm_partial (defaultRate : Nat → R) (r0 : R) (c : GaCtor Alg R) (hc : GaCtor.AlgorithmOk c) (ops : List (GaOp Alg R)) (numObj chromLen : Nat) :
    (gaHistory defaultRate r0 c (ops ++ [.solve numObj chromLen])).algorithm = (Choice.after c ops).algorithmFor numObj := by
  obtain ⟨h1, h2⟩ := algorithm_inv defaultRate r0 c hc ops
  rw [gaHistory_append]
  generalize gaHistory defaultRate r0 c ops = s at *
  unfold Choice.algorithmFor
  cases ha : (Choice.after c ops).algorithm with
  | none =>
    have h3 : s.useDefaultAlgorithm = true := by rw [h1, ha]; rfl
    simp only [GaSettings.step, h3, if_true]
    split <;> rfl
  | some a =>
    have h3 : s.useDefaultAlgorithm = false := by rw [h1, ha]; rfl
    simp only [GaSettings.step, h3, Bool.false_eq_true, if_false]
    split <;> exact h2 a ha

/-- C59: `GA(population_size, nullptr)` uses the single-objective algorithm for multi-objective problems, although the documentation promises the default algorithm. -/
theorem C59_null_algorithm_not_deduced (defaultRate : Nat → R) (r0 : R) (numObj chromLen : Nat) :
    (gaHistory (Alg := Alg) defaultRate r0 (.algorithm none) [.solve numObj chromLen]).algorithm = .singleObjective ∧
      (numObj ≠ 1 → (Choice.after (Alg := Alg) (R := R) (.algorithm none) []).algorithmFor numObj = .nsga3) :=
  ⟨rfl, fun h => if_neg h⟩

/-- C59: so does the constructor that takes the operators by value. -/
theorem C59_operators_ctor_not_deduced (defaultRate : Nat → R) (r0 r : R) (numObj chromLen : Nat) :
    (gaHistory (Alg := Alg) defaultRate r0 (.operators r) [.solve numObj chromLen]).algorithm = .singleObjective ∧
      (numObj ≠ 1 → (Choice.after (Alg := Alg) (R := R) (.operators r) []).algorithmFor numObj = .nsga3) :=
  ⟨rfl, fun h => if_neg h⟩

/-- All the runs of the history have the chromosome length `len`. -/
def SameLength (len : Nat) (ops : List (GaOp Alg R)) : Prop := ∀ op ∈ ops, ∀ numObj chromLen, op = .solve numObj chromLen → chromLen = len

theorem rate_inv (defaultRate : Nat → R) (r0 : R) (c : GaCtor Alg R) (len : Nat) (ops : List (GaOp Alg R)) (h : SameLength len ops) :
    ((gaHistory defaultRate r0 c ops).useDefaultRate = true → (Choice.after c ops).rate = none) ∧
      ((gaHistory defaultRate r0 c ops).useDefaultRate = false → (gaHistory defaultRate r0 c ops).rate = (Choice.after c ops).rateFor defaultRate len) := by
  induction ops using Gapp.ListAux.snoc_induction with
  | nil =>
    cases c with
    | default => exact ⟨fun _ => rfl, fun h => by cases h⟩
    | algorithm a => exact ⟨fun _ => rfl, fun h => by cases h⟩
    | operatorPtrs r => exact ⟨(fun h => by cases h), fun _ => rfl⟩
    | operators r => exact ⟨(fun h => by cases h), fun _ => rfl⟩
    | all a r => exact ⟨(fun h => by cases h), fun _ => rfl⟩
  | append_singleton ops op ih =>
    rw [gaHistory_append, choice_append]
    obtain ⟨h1, h2⟩ := ih (fun o ho => h o (List.mem_append_left _ ho))
    have hop := h op (by simp)
    generalize gaHistory defaultRate r0 c ops = s at *
    generalize Choice.after c ops = ch at *
    cases op with
    | algorithm a => exact ⟨h1, h2⟩
    | mutationMethod r => exact ⟨(fun h => by cases h), fun _ => rfl⟩
    | mutationCallable r => exact ⟨fun _ => rfl, (fun h => by cases h)⟩
    | mutationRate r => exact ⟨(fun h => by cases h), fun _ => rfl⟩
    | solve numObj chromLen =>
      have hl := hop numObj chromLen rfl
      subst hl
      simp only [GaSettings.step, Choice.step]
      cases hd : s.useDefaultRate with
      | true =>
        have : ch.rateFor defaultRate chromLen = defaultRate chromLen := by unfold Choice.rateFor; rw [h1 hd]; rfl
        constructor
        · intro h; split at h <;> simp_all
        · intro _; rw [this]; split <;> simp_all
      | false =>
        have := h2 hd
        constructor
        · intro h; split at h <;> simp_all
        · intro _; split <;> simp_all

/-- **C59**, the mutation rate: it is the last one the user chose, or the default for the chromosome length if the choice was left to the library and the earlier runs had the same chromosome
length (in particular if there were none). -/
theorem C59_mutation_rate_partial (defaultRate : Nat → R) (r0 : R) (c : GaCtor Alg R) (ops : List (GaOp Alg R)) (numObj chromLen : Nat) (h : SameLength chromLen ops) :
    (gaHistory defaultRate r0 c (ops ++ [.solve numObj chromLen])).rate = (Choice.after c ops).rateFor defaultRate chromLen := by
  obtain ⟨h1, h2⟩ := rate_inv defaultRate r0 c chromLen ops h
  rw [gaHistory_append]
  generalize gaHistory defaultRate r0 c ops = s at *
  simp only [GaSettings.step]
  cases hd : s.useDefaultRate with
  | true =>
    have : (Choice.after c ops).rateFor defaultRate chromLen = defaultRate chromLen := by unfold Choice.rateFor; rw [h1 hd]; rfl
    rw [this]; split <;> simp_all
  | false => rw [← h2 hd]; split <;> simp_all

/-- C59: an explicit choice of the mutation rate is used in every later run, whatever their chromosome lengths are. -/
theorem C59_chosen_rate_used (defaultRate : Nat → R) (r0 : R) (c : GaCtor Alg R) (before : List (GaOp Alg R)) (r : R) (solves : List (Nat × Nat)) :
    (gaHistory defaultRate r0 c (before ++ [.mutationRate r] ++ solves.map (fun p => .solve p.1 p.2))).rate = r := by
  unfold gaHistory
  rw [List.foldl_append, List.foldl_append]
  generalize before.foldl _ _ = s
  have key : ∀ (solves : List (Nat × Nat)) (s : GaSettings Alg R), s.useDefaultRate = false →
      ((solves.map (fun p => GaOp.solve p.1 p.2)).foldl (GaSettings.step defaultRate) s).rate = s.rate := by
    intro solves
    induction solves with
    | nil => intro s _; rfl
    | cons p ps ih =>
      intro s hs
      rw [List.map_cons, List.foldl_cons, ih]
      · simp only [GaSettings.step]; split <;> simp_all
      · simp only [GaSettings.step]; split <;> simp_all
  exact key solves _ rfl

/-- C59: the default mutation rate is only deduced once. A second run with another chromosome length uses the rate of the first one. -/
theorem C59_mutation_rate_not_deduced_again (defaultRate : Nat → R) (r0 : R) (numObj len1 len2 : Nat) :
    (gaHistory (Alg := Alg) defaultRate r0 .default [.solve numObj len1, .solve numObj len2]).rate = defaultRate len1 ∧
      (Choice.after (Alg := Alg) (R := R) .default [.solve numObj len1]).rateFor defaultRate len2 = defaultRate len2 :=
  ⟨rfl, rfl⟩

example : (gaHistory (Alg := String) (fun n => (1000 : Nat) / n) 10 .default [.solve 2 10, .algorithm (some "NSGA2"), .solve 3 10, .algorithm none, .solve 1 10]).algorithm = .singleObjective := by
  decide
example : (Choice.after (Alg := String) (R := Nat) .default [.solve 2 10, .algorithm (some "NSGA2")]).algorithmFor 3 = .user "NSGA2" := rfl
example : (gaHistory (Alg := String) (fun n => (1000 : Nat) / n) 10 .default [.solve 1 100, .solve 1 10]).rate = 10 ∧
    (Choice.after (Alg := String) (R := Nat) .default [.solve 1 100]).rateFor (fun n => 1000 / n) 10 = 100 := by decide
example : SameLength (Alg := String) (R := Nat) 10 [.solve 2 10, .mutationCallable 3] := by
  intro op h n l he
  simp only [List.mem_cons, List.not_mem_nil, or_false] at h
  rcases h with rfl | rfl
  · cases he; rfl
  · cases he

end Gapp.Props
