import Mathlib.Data.List.Perm.Basic
/-! # Specification of the mutation methods -/

namespace Gapp.Spec
variable {α : Type}

/-- `c` is `l` with the `len` genes from the locus `first` in reversed order. -/
def RangeReversed (l : List α) (first len : Nat) (c : List α) : Prop :=
  c.length = l.length ∧ (∀ i, i < first ∨ first + len ≤ i → c[i]? = l[i]?) ∧
  ∀ i, i < len → c[first + i]? = l[first + (len - 1 - i)]?

/-- `c` is `l` with the genes at the loci `i` and `j` exchanged. -/
def SwappedAt (l : List α) (i j : Nat) (c : List α) : Prop :=
  c.length = l.length ∧ c[i]? = l[j]? ∧ c[j]? = l[i]? ∧ ∀ k, k ≠ i → k ≠ j → c[k]? = l[k]?

/-- `c` is `l` with the genes at the loci `i`, `j` and `k` moved on cyclically: from `i` to `j`, from `j` to `k`, from `k` to `i`. -/
def CycledAt (l : List α) (i j k : Nat) (c : List α) : Prop :=
  c.length = l.length ∧ c[j]? = l[i]? ∧ c[k]? = l[j]? ∧ c[i]? = l[k]? ∧ ∀ m, m ≠ i → m ≠ j → m ≠ k → c[m]? = l[m]?

/-- `c` is `l` with the `len` genes from the locus `src` taken out and put back such that they begin at the locus `dest`. -/
def RangeMoved (l : List α) (src len dest : Nat) (c : List α) : Prop :=
  ∃ before moved after, l = before ++ moved ++ after ∧ before.length = src ∧ moved.length = len ∧
    dest ≤ (before ++ after).length ∧ c = (before ++ after).take dest ++ moved ++ (before ++ after).drop dest

/-- Every gene of the chromosome is within its bounds. -/
def WithinBounds {K : Type} [LE K] (lower upper : Nat → K) (l : List K) : Prop :=
  ∀ i g, l[i]? = some g → lower i ≤ g ∧ g ≤ upper i

/-- The two chromosomes are of the same length and differ only at the given loci. -/
def DifferOnlyAt (l c : List α) (loci : List Nat) : Prop :=
  c.length = l.length ∧ ∀ i, i ∉ loci → c[i]? = l[i]?

end Gapp.Spec
