import Mathlib.Data.List.Perm.Basic
/-!
# Specification of the crossover methods

Stated in terms of the chromosomes only (lists of genes); it does not refer to the model.
-/

namespace Gapp.Spec
variable {α : Type}

/-- The children `c1`, `c2` are the parents `p1`, `p2` with the genes exchanged at exactly the loci in `X`. -/
structure Exchanged (p1 p2 : List α) (X : Nat → Prop) (c1 c2 : List α) : Prop where
  length1 : c1.length = p1.length
  length2 : c2.length = p2.length
  exchanged : ∀ i, i < p1.length → X i → c1[i]? = p2[i]? ∧ c2[i]? = p1[i]?
  kept : ∀ i, i < p1.length → ¬ X i → c1[i]? = p1[i]? ∧ c2[i]? = p2[i]?

/-- The number of the crossover points that are at or before the locus `i`. -/
def pointsUpTo (points : List Nat) (i : Nat) : Nat := points.countP (fun p => decide (p ≤ i))

/-- Two parents of a permutation encoding: the same genes, each of them once. -/
def PermParents (p1 p2 : List α) : Prop := p1.Nodup ∧ p2.Perm p1

/-- A chromosome of the integer permutation encoding of length `n`: each of `0, …, n - 1` once. -/
def IsIntPerm (p : List Nat) : Prop := p.Perm (List.range p.length)

/-- `child` keeps the genes of `p1` in the range `[first, last)`. -/
def KeepsRange (p1 : List α) (first last : Nat) (child : List α) : Prop :=
  child.length = p1.length ∧ ∀ i, first ≤ i → i < last → child[i]? = p1[i]?

/-- The genes of `p` at the positions in `[first, last)`. -/
def genesIn (p : List α) (first last : Nat) : List α := (p.take last).drop first

section
variable [DecidableEq α]

/-- Order-1 crossover: the range is kept from `p1`. The positions after the range, followed cyclically by those before it, hold
the other genes in the order in which they are found in `p2` when it is also read cyclically from the end of the range. -/
def IsOrder1Child (p1 p2 : List α) (first last : Nat) (child : List α) : Prop :=
  child.Perm p1 ∧ KeepsRange p1 first last child ∧
  child.drop last ++ child.take first =
    (p2.drop last ++ p2.take last).filter (fun g => decide (g ∉ genesIn p1 first last))

/-- Order-2 crossover: the range is kept from `p1`, and the other positions, from left to right, hold the other genes in their order in
`p2`. -/
def IsOrder2Child (p1 p2 : List α) (first last : Nat) (child : List α) : Prop :=
  child.Perm p1 ∧ KeepsRange p1 first last child ∧
  child.take first ++ child.drop last = p2.filter (fun g => decide (g ∉ genesIn p1 first last))

/-- The genes of `p` at the positions that are not in `indices`, from left to right. -/
def genesOutside (p : List α) (indices : List Nat) : List α :=
  (p.zipIdx.filter (fun x => decide (x.2 ∉ indices))).map (·.1)

/-- Position crossover: the genes at the selected positions are kept from `p1`, the other positions hold the other genes in their
order in `p2`. -/
def IsPositionChild (p1 p2 : List α) (indices : List Nat) (child : List α) : Prop :=
  child.Perm p1 ∧ (∀ i ∈ indices, child[i]? = p1[i]?) ∧
  genesOutside child indices = p2.filter (fun g => decide (g ∈ genesOutside p1 indices))
end

/-- `j` is reached from the locus `i` by going from a locus to the one where `p1` has the gene that `p2` has here, i.e. both are on the
same cycle of the two permutations. -/
inductive SameCycle (p1 p2 : List α) : Nat → Nat → Prop
  | refl (i : Nat) : SameCycle p1 p2 i i
  | step {i j k : Nat} : SameCycle p1 p2 i j → k < p1.length → p1[k]? = p2[j]? → SameCycle p1 p2 i k

/-- The locus `i` is the first one of its cycle. -/
def FirstOfCycle (p1 p2 : List α) (i : Nat) : Prop := i < p1.length ∧ ∀ j, SameCycle p1 p2 i j → i ≤ j

open Classical in
/-- The number of cycles that begin before the locus `i`. -/
noncomputable def cyclesBefore (p1 p2 : List α) (i : Nat) : Nat :=
  (List.range i).countP (fun j => decide (FirstOfCycle p1 p2 j))

/-- The locus `i` is on the second, fourth, sixth, … cycle, when the cycles are listed by their first locus. -/
def OnEvenCycle (p1 p2 : List α) (i : Nat) : Prop :=
  ∃ f, FirstOfCycle p1 p2 f ∧ SameCycle p1 p2 f i ∧ cyclesBefore p1 p2 f % 2 = 1

/-- The chain of partially mapped crossover: from a locus in the range go to the locus where `p2` has the gene that `p1` has here,
until the range is left. -/
inductive PmxChain (p1 p2 : List α) (first last : Nat) : Nat → Nat → Prop
  | refl (i : Nat) : PmxChain p1 p2 first last i i
  | step {i j k : Nat} : PmxChain p1 p2 first last i j → first ≤ j → j < last →
      k < p2.length → p2[k]? = p1[j]? → PmxChain p1 p2 first last i k

/-- Partially mapped crossover: the range is kept from `p1`; the loci outside of the range keep the gene of `p2` unless that gene is
in the range already; the genes of `p2` that were replaced in the range are moved to the end of their chain. -/
def IsPmxChild (p1 p2 : List α) (first last : Nat) (child : List α) : Prop :=
  child.Perm p1 ∧ KeepsRange p1 first last child ∧
  (∀ i, i < p2.length → (i < first ∨ last ≤ i) → (∀ g, p2[i]? = some g → g ∉ genesIn p1 first last) → child[i]? = p2[i]?) ∧
  (∀ i g, first ≤ i → i < last → p2[i]? = some g → g ∉ genesIn p1 first last →
    ∃ k, PmxChain p1 p2 first last i k ∧ (k < first ∨ last ≤ k) ∧ child[k]? = some g)

end Gapp.Spec

namespace Gapp.Spec
variable {α : Type}

/-- `x` and `y` are next to each other in the chromosome `p`. -/
def Adjacent (p : List α) (x y : α) : Prop :=
  ∃ i, (p[i]? = some x ∧ p[i + 1]? = some y) ∨ (p[i]? = some y ∧ p[i + 1]? = some x)

/-- `y` is a neighbour of `x` in one of the parents and has not been used yet. -/
def UnusedNeighbour (p1 p2 used : List α) (x y : α) : Prop :=
  (Adjacent p1 x y ∨ Adjacent p2 x y) ∧ y ∉ used

open Classical in
/-- The number of the unused neighbours of a gene. -/
noncomputable def unusedDegree (p1 p2 used : List α) (x : α) : Nat :=
  (p1.filter (fun y => decide (UnusedNeighbour p1 p2 used x y))).length

/-- The rule by which edge crossover continues a child that has the genes `used`, the last of which is `last`, when `fallback` is the
gene it would take if there were no neighbours: the next gene is an unused neighbour of the last one with the fewest unused neighbours
of its own, except that the fallback is taken if it has fewer unused neighbours than all of these. -/
def IsEdgeChoice (p1 p2 used : List α) (last fallback next : α) : Prop :=
  (UnusedNeighbour p1 p2 used last next ∨ next = fallback) ∧
  (∀ x, UnusedNeighbour p1 p2 used last x → unusedDegree p1 p2 used next ≤ unusedDegree p1 p2 used x) ∧
  (¬ UnusedNeighbour p1 p2 used last next →
    ∀ x, UnusedNeighbour p1 p2 used last x → unusedDegree p1 p2 used fallback < unusedDegree p1 p2 used x)

/-- The fallback of the implementation for any gene type: the first unused gene of the first parent. -/
def FirstUnused (p1 used : List α) (g : α) : Prop :=
  ∃ i, p1[i]? = some g ∧ g ∉ used ∧ ∀ (j : Nat) x, j < i → p1[j]? = some x → x ∈ used

/-- The fallback of the implementation for unsigned integers: the smallest unused gene. -/
def SmallestUnused (p1 used : List Nat) (g : Nat) : Prop :=
  g ∈ p1 ∧ g ∉ used ∧ ∀ x ∈ p1, x ∉ used → g ≤ x

/-- The child of edge crossover: a permutation of the genes that starts with the first gene of the first parent and is continued
by the rule above. -/
def IsEdgeChild (p1 p2 : List α) (Fallback : List α → α → Prop) (child : List α) : Prop :=
  child.Perm p1 ∧ child[0]? = p1[0]? ∧
  ∀ t last next, child[t]? = some last → child[t + 1]? = some next →
    ∃ d, Fallback (child.take (t + 1)) d ∧ IsEdgeChoice p1 p2 (child.take (t + 1)) last d next

end Gapp.Spec
