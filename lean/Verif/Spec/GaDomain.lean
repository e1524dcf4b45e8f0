import Verif.Model.GaLoop
import Verif.Model.Encoding
import Verif.Model.CrossoverOps
import Verif.Model.Mutation
import Verif.Model.DoubleOps
import Verif.Spec.Double
import Verif.Proofs.Mutation
/-!
# Specification: a run stays within the domain of the encoding

The inductive predicates say what the operators of the library may return, in terms of their models: one constructor for each operator, with its random draws. The settings of the operators and the draws may be
different in every call.
-/

namespace Gapp.Spec
open Gapp.Model

/-- The chromosomes of the population, of the solutions, and of all the calls of the fitness function so far, are in the domain `D`. -/
structure InDomain {G K A V : Type} (D : List G → Prop) (st : GaState G (FVec K) A V) : Prop where
  pop : ∀ c ∈ st.pop, D c.chrom
  sols : ∀ c ∈ st.sols, D c.chrom
  calls : ∀ x ∈ st.calls, D x

/-- Every state of the run, at the end of any generation and at the end of `solve`, is within the domain `D`. -/
def RunWithin {G K A S V : Type} [DecidableEq G] [CommRing K] [LinearOrder K] (env : GaEnv G K A S V) (prev : GaState G (FVec K) A V) (initial : List (Cand G (FVec K))) (D : List G → Prop) : Prop :=
  (∀ n st, gaGens env prev initial n = some st → InDomain D st) ∧ ∀ final, gaSolve env prev initial = some final → InDomain D final

/-- What the parts of a run may do that belong to the user or to the standard library: the initial population and the results of the repair function are in the domain, and the sort of the solutions
adds nothing. -/
structure UserParts {G K A S V : Type} (env : GaEnv G K A S V) (initial : List (Cand G (FVec K))) (D : List G → Prop) : Prop where
  initial : ∀ c ∈ initial, D c.chrom
  repair : ∀ r, env.repair = some r → ∀ x, D x → D (r x)
  sort : ∀ l, ∀ c ∈ env.sortSols l, c ∈ l

/-! ## Permutations -/

/-- The permutations of `0, …, n - 1`. -/
def IsPermOf (n : Nat) (l : List Nat) : Prop := l.Perm (List.range n)

/-- What the permutation crossovers may return. -/
inductive PermCrossResult (p1 p2 c1 c2 : List Nat) : Prop
  | order1 (draw : 2 ≤ p1.length → RangeDraw p1.length) (h : permOrder1 p1 p2 draw = some (c1, c2))
  | order2 (draw : 2 ≤ p1.length → RangeDraw p1.length) (h : permOrder2 p1 p2 draw = some (c1, c2))
  | position (draw : IndexDraw p1.length) (h : permPosition p1 p2 draw = some (c1, c2))
  | cycle (h : permCycle p1 p2 = some (c1, c2))
  | edge (h : permEdge p1 p2 = some (c1, c2))
  | pmx (draw : 2 ≤ p1.length → RangeDraw p1.length) (h : permPmx p1 p2 draw = some (c1, c2))

/-- What the permutation mutations may return. -/
inductive PermMutResult (l c : List Nat) : Prop
  | inversion (mutates : Bool) (scaled rangeLen first : Nat) (hs : scaled ≤ l.length) (hlen : 2 ≤ rangeLen ∧ rangeLen ≤ maxRangeLen scaled 2) (hfirst : first ≤ l.length - rangeLen)
      (h : Model.inversion mutates rangeLen first l = some c)
  | swap2 (mutates selectMany : Bool) (draws : List Int) (hd : 2 ≤ l.length → SampleDraws l.length 2 selectMany draws) (h : Model.swap2 mutates selectMany draws l = some c)
  | swap3 (mutates selectMany : Bool) (draws : List Int) (hd : 3 ≤ l.length → SampleDraws l.length 3 selectMany draws) (h : Model.swap3 mutates selectMany draws l = some c)
  | shuffle (mutates : Bool) (scaled rangeLen first : Nat) (shuffled : List Nat) (hs : scaled ≤ l.length) (hlen : 2 ≤ rangeLen ∧ rangeLen ≤ maxRangeLen scaled 2)
      (hfirst : first ≤ l.length - rangeLen) (hsh : shuffled.Perm ((l.drop first).take rangeLen)) (h : shuffleMut mutates rangeLen first shuffled l = some c)
  | shift (mutates : Bool) (scaled rangeLen : Nat) (selectMany : Bool) (draws : List Int) (hs : scaled ≤ l.length) (hlen : 1 ≤ rangeLen ∧ rangeLen ≤ maxRangeLen scaled 1)
      (hd : 2 ≤ l.length → SampleDraws (l.length - rangeLen + 1) 2 selectMany draws) (h : Model.shift mutates rangeLen selectMany draws l = some c)

/-- A `PermutationGA` with chromosomes of length `n` and operators of the library. -/
structure UsesPermutations {K A S V : Type} (env : GaEnv Nat K A S V) (n : Nat) : Prop where
  generate : ∀ k, ∃ us, env.generate k = generatePermutation n us
  cross : ∀ g k p q, IsPermOf n p.chrom → IsPermOf n q.chrom → PermCrossResult p.chrom q.chrom (env.crossMethod g k p q).1.chrom (env.crossMethod g k p q).2.chrom
  mutate : ∀ g k c, IsPermOf n c.chrom → PermMutResult c.chrom (env.mutate g k c)

/-! ## Bit strings and integers -/

/-- What the point-wise crossovers may return. -/
inductive PointCrossResult {α : Type} (p1 p2 c1 c2 : List α) : Prop
  | singlePoint (point : Fin (p1.length + 1)) (h : opSinglePoint p1 p2 point = some (c1, c2))
  | twoPoint (a b : Fin (p1.length + 1)) (h : opTwoPoint p1 p2 a b = some (c1, c2))
  | nPoint (draw : IndexDraw p1.length) (h : opNPoint p1 p2 draw = some (c1, c2))
  | uniform (draw : IndexDraw p1.length) (h : opUniform p1 p2 draw = some (c1, c2))

/-- The strings of `n` bits. -/
def IsBitString (n : Nat) (l : List Nat) : Prop := l.length = n ∧ ∀ g ∈ l, g = 0 ∨ g = 1

/-- A `BinaryGA` with chromosomes of length `n` and operators of the library. -/
structure UsesBits {K A S V : Type} (env : GaEnv Nat K A S V) (n : Nat) : Prop where
  generate : ∀ k, ∃ pool gen bits, generateBinary n pool gen = some bits ∧ env.generate k = bits.map Bool.toNat
  cross : ∀ g k p q, IsBitString n p.chrom → IsBitString n q.chrom → PointCrossResult p.chrom q.chrom (env.crossMethod g k p q).1.chrom (env.crossMethod g k p q).2.chrom
  mutate : ∀ g k c, IsBitString n c.chrom → ∃ count selectMany draws, count ≤ n ∧ SampleDraws n count selectMany draws ∧ flip count selectMany draws c.chrom = some (env.mutate g k c)

/-- The lists of integers within the bounds. -/
def IntsWithin (bounds : List (Int × Int)) (l : List Int) : Prop := l.length = bounds.length ∧ ∀ (i : Nat) (b : Int × Int) (x : Int), bounds[i]? = some b → l[i]? = some x → b.1 ≤ x ∧ x ≤ b.2

/-- An `IntegerGA` with the bounds `bounds` and operators of the library. -/
structure UsesIntegers {K A S V : Type} (env : GaEnv Int K A S V) (bounds : List (Int × Int)) : Prop where
  generate : ∀ k, ∃ us, generateInteger bounds.length bounds us = some (env.generate k)
  cross : ∀ g k p q, IntsWithin bounds p.chrom → IntsWithin bounds q.chrom → PointCrossResult p.chrom q.chrom (env.crossMethod g k p q).1.chrom (env.crossMethod g k p q).2.chrom
  mutate : ∀ g k c, IntsWithin bounds c.chrom → ∃ count selectMany draws geneDraws, count ≤ bounds.length ∧ SampleDraws bounds.length count selectMany draws ∧
    (∀ idxs i ds b, sampleIndices bounds.length count selectMany draws = some idxs → (i, ds) ∈ idxs.zip geneDraws → bounds[i]? = some b → ∀ x ∈ ds, b.1 ≤ x ∧ x ≤ b.2) ∧
    intUniform count selectMany draws geneDraws c.chrom = some (env.mutate g k c)

/-! ## Real numbers -/

/-- What the crossovers of the real encoding may return. BLX-α: `alpha` and the bounds are not too large. -/
inductive RealCrossResult (bounds : List (GeneBounds Dbl)) (p1 p2 c1 c2 : List Dbl) : Prop
  | arithmetic (fused : Option Bool) (k : ℕ) (hk : k < 2 ^ 53) (h : arithmeticCrossoverD fused k bounds p1 p2 = some (c1, c2))
  | wright (fused less : Bool) (k1 k2 : ℕ) (hk1 : k1 < 2 ^ 53) (hk2 : k2 < 2 ^ 53) (h : wrightCrossoverD fused less k1 k2 bounds p1 p2 = some (c1, c2))
  | blx (fused : Bool) (alpha : ℚ) (ka kb : ℤ) (ha : IsDouble alpha) (ha0 : 0 ≤ alpha) (hak : alpha ≤ 2 ^ ka) (hka : 0 ≤ ka) (hkb : 0 ≤ kb) (hk : ka + kb ≤ 1019)
      (hb : ∀ b ∈ bounds, SaneBounds kb b) (draws : Nat → ℕ × ℕ) (hd : ∀ i, (draws i).1 < 2 ^ 53 ∧ (draws i).2 < 2 ^ 53) (h : blxCrossoverD fused (.fin alpha) draws bounds p1 p2 = some (c1, c2))
  | sbx (recip fused : Bool) (eq : Dbl → Dbl → Bool) (heq : ∀ x, eq x x = true) (htiny : recip = true → EqualIfTiny eq) (pow : Dbl → Dbl → Dbl) (hpow : PowContract pow) (eta : ℚ) (heta : 0 ≤ eta) (draws : Nat → ℕ × ℕ)
      (hd : ∀ i, (draws i).1 < 2 ^ 53 ∧ (draws i).2 < 2 ^ 53) (h : sbxCrossoverD recip fused eq pow (.fin eta) draws bounds p1 p2 = some (c1, c2))

/-- A mutation of the real encoding with the rule `gene` for a gene, whose draws meet `ok`, may return `c`. -/
def RealMutReturns {β : Type} (gene : GeneBounds Dbl → β → Dbl → Option Dbl) (ok : β → Prop) (bounds : List (GeneBounds Dbl)) (l c : List Dbl) : Prop :=
  ∃ count selectMany draws geneDraws, count ≤ l.length ∧ SampleDraws l.length count selectMany draws ∧ geneDraws.length = count ∧ (∀ d ∈ geneDraws, ok d) ∧
    realMutateD gene bounds count selectMany draws geneDraws l = some c

/-- What the mutations of the real encoding may return. Gauss: the standard deviation is finite. -/
inductive RealMutResult (bounds : List (GeneBounds Dbl)) (l c : List Dbl) : Prop
  | uniform (fused : Bool) (h : RealMutReturns (realUniformGeneD fused) (fun k => k < 2 ^ 53) bounds l c)
  | nonUniform (recip fused : Bool) (pow : Dbl → Dbl → Dbl) (hpow : PowContract pow) (beta : ℚ) (hbeta : 0 ≤ beta) (gen maxGen : ℕ) (hg : gen < maxGen) (hmax : maxGen < 2 ^ 64)
      (h : RealMutReturns (realNonUniformGeneD recip fused pow (.fin beta) gen maxGen) (fun d => d.1 < 2 ^ 53) bounds l c)
  | gauss (recip fused : Bool) (sigma : ℚ) (hsigma : 0 < sigma) (hfin : ∀ b ∈ bounds, Dbl.isFinite (divR recip (Dbl.sub b.upper b.lower) (.fin sigma)) = true)
      (h : RealMutReturns (realGaussGeneD recip fused (.fin sigma)) (fun z => ∃ q, z = .fin q) bounds l c)
  | polynomial (fused : Bool) (pow : Dbl → Dbl → Dbl) (hpow : PowContract pow) (eta : ℚ) (heta : 0 ≤ eta) (h : RealMutReturns (realPolynomialGeneD fused pow (.fin eta)) (fun k => k < 2 ^ 53) bounds l c)
  | boundary (h : RealMutReturns realBoundaryGeneD (fun _ => True) bounds l c)

/-- An `RCGA` with the bounds `bounds` and operators of the library, in binary64 arithmetic. -/
structure UsesReals {K A S V : Type} (env : GaEnv Dbl K A S V) (bounds : List (GeneBounds Dbl)) : Prop where
  generate : ∀ k, ∃ fused draws, (∀ i, draws i < 2 ^ 53) ∧ generateRealD fused bounds.length bounds draws = some (env.generate k)
  cross : ∀ g k p q, LegalDoubles bounds p.chrom → LegalDoubles bounds q.chrom → RealCrossResult bounds p.chrom q.chrom (env.crossMethod g k p q).1.chrom (env.crossMethod g k p q).2.chrom
  mutate : ∀ g k c, LegalDoubles bounds c.chrom → RealMutResult bounds c.chrom (env.mutate g k c)

end Gapp.Spec
