import Verif.Model.Operators
import Verif.Model.Float
/-!
# Equality and hash values of candidates

Models `core/candidate.hpp:180-217`. The fitness cache of a run is a map with candidates as keys (`ga_base.decl.hpp:586`, `cache.hpp`), which uses these two functions.
-/

namespace Gapp.Model

/-- candidate.hpp:200: the new value of `seed` for a gene whose value of `std::hash` is `h`. `size_t` has 64 bits. -/
def hashCombine (seed h : BitVec 64) : BitVec 64 := seed ^^^ (h + 0x9e3779b9#64 + (seed <<< 6) + (seed >>> 2))

/-- candidate.hpp:193-203 `CandidateHasher::operator()`, and 206-217 `std::hash<Candidate>`. `stdHash` is `std::hash` for the genes. -/
def candHash {G F : Type} (stdHash : G → BitVec 64) (c : Cand G F) : BitVec 64 :=
  c.chrom.foldl (fun seed gene => hashCombine seed (stdHash gene)) (BitVec.ofNat 64 c.chrom.length)

/-- candidate.hpp:180-191 `operator==`, for genes that are not floating-point numbers. -/
def candEqDiscrete {G F : Type} [DecidableEq G] (a b : Cand G F) : Bool := decide (a.chrom = b.chrom)

/-- candidate.hpp:180-191 `operator==`, for floating-point genes. -/
def candEqFloat {K F : Type} [CommRing K] [LinearOrder K] (t : Tol K) (a b : Cand (Flt K) F) : Bool := floatVecIsEqual t a.chrom b.chrom

end Gapp.Model
