import Mathlib.Logic.Relation
import Mathlib.Algebra.Order.Ring.Rat
import Mathlib.Algebra.Field.Rat
import Verif.Spec.Float
import Verif.Model.ParetoFront
import Verif.Model.Operators
/-!
# Specification of Pareto comparison with tolerances

The library never compares fitness values exactly: by default two values are equal if they differ by at most `1e-12`, or by at most ten machine epsilons of the larger one. With
tolerances dominance is not transitive, so the notions of a Pareto front and of a non-dominated sorting are not defined by it. This file says what can be expected of them instead.
-/

namespace Gapp.Spec
open Gapp.Model
variable {K : Type} [CommRing K] [LinearOrder K]

/-- `b` is greater than `a` by more than the absolute tolerance and by more than the relative tolerance of `b`. Infinities compare exactly. -/
def GreaterBy (t : Tol K) : Flt K → Flt K → Prop
  | .fin b, .fin a => b - a > t.abs ∧ b - a > t.rel * |b|
  | .ninf, _ => False
  | _, .ninf => True
  | _, .pinf => False
  | .pinf, _ => True

/-- `b` beats `a`: it is nowhere definitely worse, and somewhere better by more than the tolerances (the relative one taken at the value of `b`). This is implied by dominance. -/
def Beats (t : Tol K) (b a : FVec K) : Prop :=
  (∀ (i : Nat) (ha : i < a.length) (hb : i < b.length), ¬ DefinitelyLess t b[i] a[i]) ∧
  (∃ (i : Nat) (ha : i < a.length) (hb : i < b.length), GreaterBy t b[i] a[i])

/-- `b` clearly dominates `a`: it is at least as good everywhere, without any tolerance, and somewhere better by more than the tolerances. This implies both exact and tolerant dominance. -/
def ClearlyDominates (t : Tol K) (b a : FVec K) : Prop :=
  (∀ (i : Nat) (ha : i < a.length) (hb : i < b.length), a[i] ≤ b[i]) ∧
  (∃ (i : Nat) (ha : i < a.length) (hb : i < b.length), DefinitelyLess t a[i] b[i])

/-- `b` beats `a`, directly or through a chain of the points that fulfil `P`, each of which beats the previous one. -/
def BeatsThrough (t : Tol K) (P : FVec K → Prop) (b a : FVec K) : Prop :=
  Relation.TransGen (fun x y => P x ∧ P y ∧ Beats t y x) a b

/-- Row `j` of a matrix beats row `i`. -/
abbrev RowBeats (t : Tol K) (fmat : FMat K) (j i : Nat) : Prop := Beats t (fmat.getD j []) (fmat.getD i [])

/-- What can be expected of a Pareto front of the rows of a matrix: no row is listed twice, every row that is not listed is beaten by some row, and a chain of rows, each of which beats the previous
one, leads from every row to a listed one. -/
structure FrontTol (t : Tol K) (fmat : FMat K) (res : List Nat) : Prop where
  nodup : res.Nodup
  lt : ∀ i ∈ res, i < fmat.length
  cover : ∀ i, i < fmat.length → i ∈ res ∨ ∃ j, j < fmat.length ∧ RowBeats t fmat j i
  leads : ∀ i, i < fmat.length → ∃ j ∈ res, Relation.ReflTransGen (fun a b => a < fmat.length ∧ b < fmat.length ∧ RowBeats t fmat b a) i j

/-- `b` comes before `a` in the descending lexicographic order. -/
def LexBefore (b a : FVec K) : Prop := ∃ (k : Nat) (ha : k < a.length) (hb : k < b.length), b.take k = a.take k ∧ a[k] < b[k]

/-- What can be expected of a non-dominated sorting of the rows of a matrix: every row is ranked once, in the order of the ranks; every row is beaten by a row of each of the lower ranks; a row that
clearly dominates another one has the lower rank; and if a row is beaten by another row of its own rank, then it is the lexicographically greater one of the two. -/
structure RankingTol (t : Tol K) (fmat : FMat K) (res : List (Nat × Nat)) : Prop where
  perm : (res.map (·.1)).Perm (List.range fmat.length)
  sorted : res.Pairwise (fun a b => a.2 ≤ b.2)
  lower : ∀ i r, (i, r) ∈ res → ∀ q, q < r → ∃ j, (j, q) ∈ res ∧ RowBeats t fmat j i
  clear : ∀ i r j s, (i, r) ∈ res → (j, s) ∈ res → ClearlyDominates t (fmat.getD j []) (fmat.getD i []) → s < r
  same : ∀ i j r, (i, r) ∈ res → (j, r) ∈ res → RowBeats t fmat j i → LexBefore (fmat.getD i []) (fmat.getD j [])

/-- What can be expected of the union of two sets without the dominated points: it has only points of the two sets, every point that is left out is beaten by a point of the other set, and is beaten,
directly or through a chain of points of the two sets, by a point that is kept. -/
structure UnionTol {α : Type} (t : Tol K) (fitness : α → FVec K) (lhs rhs res : List α) : Prop where
  mem : ∀ x ∈ res, x ∈ lhs ∨ x ∈ rhs
  left : ∀ x ∈ lhs, x ∈ res ∨ ∃ y ∈ rhs, Beats t (fitness y) (fitness x)
  right : ∀ x ∈ rhs, x ∈ res ∨ ∃ y ∈ lhs, Beats t (fitness y) (fitness x)
  leads : ∀ x, x ∈ lhs ∨ x ∈ rhs → x ∈ res ∨ ∃ y ∈ res, BeatsThrough t (fun v => ∃ z, (z ∈ lhs ∨ z ∈ rhs) ∧ fitness z = v) (fitness y) (fitness x)

/-- What can be expected of the solutions of a run, where `seen` are the candidates that it considered: they are some of these candidates, with their fitness; every other candidate is a copy of a solution
or is beaten by some candidate; and it has the fitness of a solution or is beaten by one, directly or through a chain of candidates. -/
structure SolutionsTol {G : Type} (t : Tol K) (f : List G → FVec K) (seen : Cand G (FVec K) → Prop) (sols : List (Cand G (FVec K))) : Prop where
  found : ∀ c ∈ sols, seen c ∧ c.evaluated = true ∧ c.fitness = f c.chrom
  cover : ∀ x, seen x → (∃ c ∈ sols, c.chrom = x.chrom ∧ c.fitness = x.fitness) ∨ ∃ y, seen y ∧ Beats t y.fitness x.fitness
  leads : ∀ x, seen x → ∃ c ∈ sols, c.fitness = x.fitness ∨ BeatsThrough t (fun v => ∃ z, seen z ∧ z.fitness = v) c.fitness x.fitness

/-- The default tolerances: `1e-12`, and ten times the machine epsilon `2^-52`. -/
def defaultTol : Tol ℚ := ⟨1 / 10 ^ 12, 10 / 2 ^ 52⟩

end Gapp.Spec
