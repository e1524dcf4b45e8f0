import Verif.Model.Operators
import Verif.Spec.Operators
import Verif.Proofs.Float
/-!
# C18, C21: the evaluated flags
-/

namespace Gapp.Props
open Gapp.Model Gapp.Spec

variable {G F K : Type} [LinearOrder K]

/-- The candidate is truthful for `f`. -/
abbrev Truthful (f : List G → F) (c : Cand G F) : Prop := TruthfulFlag f c.chrom c.fitness c.evaluated

/-! ## C18: the crossover operator -/

/-- C18: with the outcome "no crossover" the children are copies of the parents. -/
theorem C18_no_crossover (eq : List G → List G → Bool) (pc r : K) (hr : pc ≤ r) (cross : Cand G F → Cand G F → Cand G F × Cand G F)
    (p1 p2 : Cand G F) : crossoverOp eq pc r cross p1 p2 = (p1, p2) := by
  simp only [crossoverOp, ge_iff_le, hr, if_true]

/-- What the operator guarantees for one child. `made` is the chromosome made by the crossover method for this child. -/
structure ChildOk (eq : List G → List G → Bool) (p1 p2 : Cand G F) (child : Cand G F) : Prop where
  /-- An evaluated child compares equal to a parent and has exactly the fitness of this parent. -/
  inherited : child.evaluated = true → ∃ p, (p = p1 ∨ p = p2) ∧ p.evaluated = true ∧ (child.chrom = p.chrom ∨ eq child.chrom p.chrom = true) ∧
    child.fitness = p.fitness
  /-- A child that is different from both of the parents has to be evaluated. -/
  fresh : child.chrom ≠ p1.chrom → child.chrom ≠ p2.chrom → eq child.chrom p1.chrom = false → eq child.chrom p2.chrom = false →
    child.evaluated = false

/-- C18, for every crossover method, comparison of candidates, crossover rate and random outcome. -/
theorem C18_children_flags (eq : List G → List G → Bool) (pc r : K) (cross : Cand G F → Cand G F → Cand G F × Cand G F) (p1 p2 : Cand G F) :
    ChildOk eq p1 p2 (crossoverOp eq pc r cross p1 p2).1 ∧ ChildOk eq p1 p2 (crossoverOp eq pc r cross p1 p2).2 := by
  have hp1 : ChildOk eq p1 p2 p1 := ⟨fun h => ⟨p1, Or.inl rfl, h, Or.inl rfl, rfl⟩, fun h => absurd rfl h⟩
  have hp2 : ChildOk eq p1 p2 p2 := ⟨fun h => ⟨p2, Or.inr rfl, h, Or.inl rfl, rfl⟩, fun _ h => absurd rfl h⟩
  have hc : ∀ c, ChildOk eq p1 p2 (childFlags eq p1 p2 c) := by
    intro c
    simp only [childFlags]
    split
    · next h => exact ⟨fun he => ⟨p1, Or.inl rfl, he, Or.inr h, rfl⟩, fun _ _ h1 _ => by rw [h] at h1; cases h1⟩
    · split
      · next h => exact ⟨fun he => ⟨p2, Or.inr rfl, he, Or.inr h, rfl⟩, fun _ _ _ h1 => by rw [h] at h1; cases h1⟩
      · exact ⟨fun he => (by cases he), fun _ _ _ _ => rfl⟩
  simp only [crossoverOp]
  split
  · exact ⟨hp1, hp2⟩
  · split
    · exact ⟨hp1, hp2⟩
    · exact ⟨hc _, hc _⟩

/-- C18: if a crossover is performed on different parents, the chromosomes of the children are those made by the crossover method; otherwise they are
the chromosomes of the parents. -/
theorem C18_children_chromosomes (eq : List G → List G → Bool) (pc r : K) (cross : Cand G F → Cand G F → Cand G F × Cand G F) (p1 p2 : Cand G F) :
    let c := crossoverOp eq pc r cross p1 p2
    (r < pc ∧ eq p1.chrom p2.chrom = false → c.1.chrom = (cross p1 p2).1.chrom ∧ c.2.chrom = (cross p1 p2).2.chrom) ∧
    (pc ≤ r ∨ eq p1.chrom p2.chrom = true → c = (p1, p2)) := by
  intro c
  have hf : ∀ x : Cand G F, (childFlags eq p1 p2 x).chrom = x.chrom := by
    intro x; simp only [childFlags]; split
    · rfl
    · split <;> rfl
  constructor
  · rintro ⟨h1, h2⟩
    have : ¬ r ≥ pc := not_le.mpr h1
    simp only [c, crossoverOp, this, if_false, h2, Bool.false_eq_true, hf, and_self]
  · rintro (h | h)
    · exact C18_no_crossover eq pc r h cross p1 p2
    · simp only [c, crossoverOp, h, if_true, ite_self]

/-- C18: when candidates are compared exactly (every gene type but the floating-point ones), children marked as evaluated have the right
fitness, if the parents have. -/
theorem C18_children_truthful [DecidableEq G] (f : List G → F) (pc r : K) (cross : Cand G F → Cand G F → Cand G F × Cand G F) (p1 p2 : Cand G F)
    (h1 : Truthful f p1) (h2 : Truthful f p2) :
    Truthful f (crossoverOp exactEq pc r cross p1 p2).1 ∧ Truthful f (crossoverOp exactEq pc r cross p1 p2).2 := by
  obtain ⟨c1, c2⟩ := C18_children_flags exactEq pc r cross p1 p2
  have key : ∀ c, ChildOk exactEq p1 p2 c → Truthful f c := by
    intro c hc he
    obtain ⟨p, hp, hpe, hch, hfit⟩ := hc.inherited he
    have hch : c.chrom = p.chrom := by
      rcases hch with h | h
      · exact h
      · exact of_decide_eq_true h
    rw [hfit, hch]
    rcases hp with rfl | rfl
    · exact h1 hpe
    · exact h2 hpe
  exact ⟨key _ c1, key _ c2⟩

example : Truthful (fun l : List Nat => l.sum) ⟨[1, 2], 3, true⟩ ∧
    crossoverOp (K := ℚ) exactEq 1 (1 / 2) (fun p q => (⟨[1, 5], p.fitness, true⟩, ⟨[4, 2], q.fitness, true⟩)) ⟨[1, 2], 3, true⟩ ⟨[4, 5], 9, true⟩ =
      (⟨[1, 5], 3, false⟩, ⟨[4, 2], 9, false⟩) := by
  refine ⟨fun _ => rfl, ?_⟩
  have : ¬ ((1 / 2 : ℚ) ≥ 1) := by norm_num
  simp only [crossoverOp, this, if_false]
  decide

/-- C18: for floating-point genes the comparison has a tolerance, and a child that is marked as evaluated can have the fitness of a slightly different
chromosome. -/
theorem C18_real_genes_approximate :
    ∃ (t : Tol ℤ) (f : List (Flt ℤ) → Flt ℤ) (p1 p2 : Cand (Flt ℤ) (Flt ℤ)) (cross : Cand (Flt ℤ) (Flt ℤ) → Cand (Flt ℤ) (Flt ℤ) → Cand (Flt ℤ) (Flt ℤ) × Cand (Flt ℤ) (Flt ℤ)),
      Truthful f p1 ∧ Truthful f p2 ∧ ¬ Truthful f (crossoverOp (K := ℤ) (floatVecIsEqual t) 1 0 cross p1 p2).1 := by
  refine ⟨⟨1, 0⟩, fun l => l.headD .ninf, ⟨[.fin 0], .fin 0, true⟩, ⟨[.fin 10], .fin 10, true⟩,
    fun p q => (⟨[.fin 1], p.fitness, true⟩, q), fun _ => rfl, fun _ => rfl, ?_⟩
  intro h
  have := h (by decide)
  revert this
  decide

/-! ## C21: the mutation operator and repair -/

/-- C21: the mutation operator on an evaluated candidate leaves it marked as evaluated only if the chromosome compares equal to the old one; an
unevaluated candidate stays unevaluated; the fitness is never changed. -/
theorem C21_mutation_flags (eq : List G → List G → Bool) (mutate : Cand G F → List G) (c : Cand G F) :
    let m := mutationOp eq mutate c
    m.chrom = mutate c ∧ m.fitness = c.fitness ∧ (m.evaluated = true ↔ c.evaluated = true ∧ eq (mutate c) c.chrom = true) := by
  simp only [mutationOp]
  cases h : c.evaluated <;> simp [h]

/-- C21: with exact comparison, mutated candidates marked as evaluated have the right fitness. -/
theorem C21_mutation_truthful_partial [DecidableEq G] (f : List G → F) (mutate : Cand G F → List G) (c : Cand G F) (h : Truthful f c) :
    Truthful f (mutationOp exactEq mutate c) := by
  obtain ⟨h1, h2, h3⟩ := C21_mutation_flags exactEq mutate c
  intro he
  obtain ⟨h4, h5⟩ := h3.mp he
  have h5 : mutate c = c.chrom := of_decide_eq_true h5
  rw [h2, h1, h5]
  exact h h4

/-- C21: an evaluated candidate whose chromosome is changed by the mutation has to be evaluated again (exact comparison). -/
theorem C21_mutation_changed_partial [DecidableEq G] (mutate : Cand G F → List G) (c : Cand G F) (h : mutate c ≠ c.chrom) :
    (mutationOp exactEq mutate c).evaluated = false := by
  obtain ⟨-, -, h3⟩ := C21_mutation_flags exactEq mutate c
  rw [← Bool.not_eq_true, h3]
  rintro ⟨-, h5⟩
  exact h (of_decide_eq_true h5)

/-- C21: for floating-point genes a changed candidate can stay marked as evaluated. -/
theorem C21_real_genes_approximate :
    ∃ (t : Tol ℤ) (f : List (Flt ℤ) → Flt ℤ) (c : Cand (Flt ℤ) (Flt ℤ)) (mutate : Cand (Flt ℤ) (Flt ℤ) → List (Flt ℤ)),
      Truthful f c ∧ ¬ Truthful f (mutationOp (floatVecIsEqual t) mutate c) := by
  refine ⟨⟨1, 0⟩, fun l => l.headD .ninf, ⟨[.fin 0], .fin 0, true⟩, fun _ => [.fin 1], fun _ => rfl, ?_⟩
  intro h
  have := h (by decide)
  revert this
  decide

/-- C21: the repair step, for all gene types and repair functions: the chromosome becomes the repaired one, and the candidate stays marked as
evaluated only if the chromosome did not change. -/
theorem C21_repair [DecidableEq G] (repair : List G → List G) (c : Cand G F) :
    let m := repairOp (some repair) c
    m.chrom = repair c.chrom ∧ m.fitness = c.fitness ∧ (m.evaluated = true ↔ c.evaluated = true ∧ repair c.chrom = c.chrom) := by
  simp only [repairOp]
  split
  · next h => simp [h]
  · next h =>
    have h : repair c.chrom = c.chrom := not_not.mp h
    simp [h]

/-- C21: without a repair function nothing happens. -/
theorem C21_no_repair [DecidableEq G] (c : Cand G F) : repairOp none c = c := rfl

/-- C21: repaired candidates marked as evaluated have the right fitness. -/
theorem C21_repair_truthful [DecidableEq G] (f : List G → F) (repair : Option (List G → List G)) (c : Cand G F) (h : Truthful f c) :
    Truthful f (repairOp repair c) := by
  cases repair with
  | none => exact h
  | some r =>
    obtain ⟨h1, h2, h3⟩ := C21_repair r c
    intro he
    obtain ⟨h4, h5⟩ := h3.mp he
    rw [h2, h1, h5]
    exact h h4

example : mutationOp exactEq (fun c => c.chrom.map (· + 1)) (⟨[1, 2], 3, true⟩ : Cand Nat Nat) = ⟨[2, 3], 3, false⟩ := by decide
example : mutationOp exactEq (fun c => c.chrom) (⟨[1, 2], 3, true⟩ : Cand Nat Nat) = ⟨[1, 2], 3, true⟩ := by decide
example : repairOp (some (fun l => l.map (min 1))) (⟨[1, 2], 3, true⟩ : Cand Nat Nat) = ⟨[1, 1], 3, false⟩ := by decide

end Gapp.Props
