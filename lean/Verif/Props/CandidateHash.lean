import Verif.Model.CandidateHash
import Verif.Spec.CandidateHash
import Verif.Props.Float
import Mathlib.Algebra.Order.Archimedean.Basic
/-!
# C68: equal candidates have equal hash values
-/

namespace Gapp.Props
open Gapp.Model Gapp.Spec

/-- For bits, integers and permutations: the comparison of candidates is an equivalence relation, and equal candidates have the same hash value, whatever the hash values of the genes are. So
candidates can be the keys of a map, and the fitness vector and the flag of a candidate do not matter. -/
theorem C68_discrete {G F : Type} [DecidableEq G] (stdHash : G → BitVec 64) :
    KeyEquivalence (candEqDiscrete (G := G) (F := F)) ∧ HashConsistent (candEqDiscrete (G := G) (F := F)) (candHash stdHash) ∧
    ∀ (chrom : List G) (f f' : F) (e e' : Bool),
      candEqDiscrete ⟨chrom, f, e⟩ ⟨chrom, f', e'⟩ = true ∧ candHash stdHash ⟨chrom, f, e⟩ = candHash stdHash (⟨chrom, f', e'⟩ : Cand G F) := by
  refine ⟨⟨fun a => ?_, fun a b h => ?_, fun a b c h h' => ?_⟩, fun a b h => ?_, fun chrom f f' e e' => ⟨?_, rfl⟩⟩
  · exact decide_eq_true rfl
  · exact decide_eq_true (of_decide_eq_true h).symm
  · exact decide_eq_true ((of_decide_eq_true h).trans (of_decide_eq_true h'))
  · have h := of_decide_eq_true h
    unfold candHash
    rw [h]
  · exact decide_eq_true rfl

example : candEqDiscrete (⟨[3, 1, 2], 7, true⟩ : Cand Nat Nat) ⟨[3, 1, 2], 0, false⟩ = true ∧
    candEqDiscrete (⟨[3, 1, 2], 7, true⟩ : Cand Nat Nat) ⟨[3, 2, 1], 7, true⟩ = false ∧
    candHash (BitVec.ofNat 64) (⟨[3, 1, 2], 7, true⟩ : Cand Nat Nat) ≠ candHash (BitVec.ofNat 64) (⟨[3, 2, 1], 7, true⟩ : Cand Nat Nat) := by
  decide +kernel

/-- The hash value of a candidate determines the hash value of its last gene, if the genes before it are given: candidates that differ only in one gene, at the end, collide exactly if the hash
values of these genes do. -/
theorem C68_last_gene {G F : Type} (stdHash : G → BitVec 64) (chrom : List G) (x y : G) (f f' : F) (e e' : Bool) :
    candHash stdHash (⟨chrom ++ [x], f, e⟩ : Cand G F) = candHash stdHash (⟨chrom ++ [y], f', e'⟩ : Cand G F) ↔ stdHash x = stdHash y := by
  have hc : ∀ s a b : BitVec 64, hashCombine s a = hashCombine s b ↔ a = b := by
    intro s a b
    unfold hashCombine
    rw [BitVec.xor_right_inj]
    constructor
    · intro h
      rw [BitVec.add_assoc, BitVec.add_assoc, BitVec.add_assoc, BitVec.add_assoc] at h
      exact (BitVec.add_left_inj _).mp h
    · rintro rfl; rfl
  unfold candHash
  simp only [List.foldl_append, List.foldl_cons, List.foldl_nil, List.length_append, List.length_singleton]
  exact hc _ _ _

example : candHash (BitVec.ofNat 64) (⟨[5, 8], 0, true⟩ : Cand Nat Nat) ≠ candHash (BitVec.ofNat 64) (⟨[5, 9], 0, true⟩ : Cand Nat Nat) := by
  decide +kernel

variable {K F : Type} [Field K] [LinearOrder K] [IsStrictOrderedRing K]

/-- For real genes with tolerances of zero the requirements are met too. -/
theorem C68_float_exact (stdHash : Flt K → BitVec 64) :
    KeyEquivalence (candEqFloat (F := F) (⟨0, 0⟩ : Tol K)) ∧ HashConsistent (candEqFloat (F := F) (⟨0, 0⟩ : Tol K)) (candHash stdHash) := by
  have key : ∀ l m : List (Flt K), floatVecIsEqual (⟨0, 0⟩ : Tol K) l m = true ↔ l = m := by
    intro l
    induction l with
    | nil =>
      intro m
      cases m <;> simp [floatVecIsEqual]
    | cons x l ih =>
      intro m
      cases m with
      | nil => simp [floatVecIsEqual]
      | cons y m =>
        have h := ih m
        unfold floatVecIsEqual at h ⊢
        simp only [List.length_cons, List.zip_cons_cons, List.all_cons, (C06_zero_tolerance_is_exact x y).2.1, Bool.and_eq_true, beq_iff_eq, Nat.add_right_cancel_iff,
          decide_eq_true_eq, List.cons.injEq] at h ⊢
        rw [← h]
        tauto
  have key' : ∀ a b : Cand (Flt K) F, candEqFloat (⟨0, 0⟩ : Tol K) a b = true ↔ a.chrom = b.chrom := fun a b => key _ _
  refine ⟨⟨fun a => (key' a a).mpr rfl, fun a b h => (key' b a).mpr ((key' a b).mp h).symm,
    fun a b c h h' => (key' a c).mpr (((key' a b).mp h).trans ((key' b c).mp h'))⟩, fun a b h => ?_⟩
  have h := (key' a b).mp h
  unfold candHash
  rw [h]

/-- Full statement, as in `C68_float_exact`, for all tolerances: false, see `C68_float_hash` and `C68_float_not_transitive`. Proved for all tolerances: the comparison is reflexive and symmetric, so
a candidate is equal to every copy of it, and the copies have the same hash value. -/
theorem C68_float_partial {t : Tol K} (ht : t.Valid) (stdHash : Flt K → BitVec 64) (a b : Cand (Flt K) F) :
    candEqFloat t a b = candEqFloat t b a ∧
    (a.chrom = b.chrom → candEqFloat t a b = true ∧ candHash stdHash a = candHash stdHash b) := by
  constructor
  · unfold candEqFloat floatVecIsEqual
    have h1 : ∀ l m : List (Flt K), (l.zip m).all (fun p => floatIsEqual t p.1 p.2) = (m.zip l).all (fun p => floatIsEqual t p.1 p.2) := by
      intro l
      induction l with
      | nil => intro m; cases m <;> simp
      | cons x l ih =>
        intro m
        cases m with
        | nil => simp
        | cons y m =>
          rw [List.zip_cons_cons, List.zip_cons_cons, List.all_cons, List.all_cons, ih m, (C06_float_comparison_laws ht x y x x x).2.1]
    rw [h1, Bool.beq_comm]
  · intro h
    constructor
    · unfold candEqFloat floatVecIsEqual
      rw [h]
      have h1 : ∀ l : List (Flt K), (l.zip l).all (fun p => floatIsEqual t p.1 p.2) = true := by
        intro l
        induction l with
        | nil => rfl
        | cons x l ih => rw [List.zip_cons_cons, List.all_cons, ih, (C06_float_comparison_laws ht x x x x x).1]; rfl
      rw [h1, beq_self_eq_true]; rfl
    · unfold candHash
      rw [h]

/-- With a positive absolute tolerance, hash values and comparison of candidates with real genes fit together only if `std::hash` gives all the numbers the same value. For every other hash
function there are two candidates that are equal, and have different hash values. -/
theorem C68_float_hash [Archimedean K] [Nonempty F] {t : Tol K} (h0 : 0 < t.abs) (stdHash : Flt K → BitVec 64)
    (h : HashConsistent (candEqFloat (F := F) t) (candHash stdHash)) (a b : K) : stdHash (.fin a) = stdHash (.fin b) := by
  obtain ⟨f⟩ := ‹Nonempty F›
  have step : ∀ x y : K, |x - y| ≤ t.abs → stdHash (.fin x) = stdHash (.fin y) := by
    intro x y hxy
    have h1 := h ⟨[.fin x], f, true⟩ ⟨[.fin y], f, true⟩ (by
      unfold candEqFloat floatVecIsEqual
      simp only [List.length_singleton, beq_self_eq_true, List.zip_cons_cons, List.zip_nil_left, List.all_cons, List.all_nil, Bool.and_true, Bool.true_and]
      unfold floatIsEqual Tol.at
      exact decide_eq_true (hxy.trans (le_max_right _ _)))
    exact (C68_last_gene stdHash [] (.fin x) (.fin y) f f true true).mp h1
  have steps : ∀ (n : ℕ) (x : K), stdHash (.fin (x + n * t.abs)) = stdHash (.fin x) := by
    intro n x
    induction n with
    | zero => rw [Nat.cast_zero, zero_mul, add_zero]
    | succ n ih =>
      rw [← ih]
      refine step _ _ (le_of_eq ?_)
      rw [Nat.cast_succ, show x + (↑n + 1) * t.abs - (x + ↑n * t.abs) = t.abs by ring, abs_of_pos h0]
  have main : ∀ x y : K, x ≤ y → stdHash (.fin x) = stdHash (.fin y) := by
    intro x y hxy
    obtain ⟨n, hn, hn'⟩ := existsUnique_add_zsmul_mem_Ico h0 0 (y - x) |>.exists.imp fun n hn => hn
    have hn0 : 0 ≤ n := by
      by_contra hneg
      push Not at hneg
      have h2 : (n : K) + 1 ≤ 0 := by exact_mod_cast hneg
      rw [zero_add, zsmul_eq_mul] at hn
      nlinarith [sub_nonneg.mpr hxy]
    obtain ⟨m, rfl⟩ := Int.eq_ofNat_of_zero_le hn0
    rw [zero_add, zsmul_eq_mul] at hn hn'
    have hm : ((m : ℤ) : K) = (m : K) := Int.cast_natCast m
    rw [← steps m x]
    refine step _ _ ?_
    rw [hm] at hn hn'
    rw [abs_le]
    constructor <;> linarith
  rcases le_total a b with hab | hab
  · exact main a b hab
  · exact (main b a hab).symm

/-- The two candidates, for the default tolerances (`math.hpp:52-53`) and any hash function that tells 0 and 1 apart. -/
theorem C68_float_violated (stdHash : Flt ℚ → BitVec 64) (h01 : stdHash (.fin 0) ≠ stdHash (.fin 1)) :
    ¬ HashConsistent (candEqFloat (F := Unit) (⟨1 / 10 ^ 12, 10 / 2 ^ 52⟩ : Tol ℚ)) (candHash stdHash) :=
  fun h => h01 (C68_float_hash (by norm_num) stdHash h 0 1)

example : ∃ stdHash : Flt ℚ → BitVec 64, stdHash (.fin 0) ≠ stdHash (.fin 1) := by
  refine ⟨fun x => match x with | .fin a => BitVec.ofInt 64 a.num | _ => 0, ?_⟩
  decide +kernel

/-- With a positive absolute tolerance and a relative tolerance below 1/2 the comparison is not transitive. -/
theorem C68_float_not_transitive [Nonempty F] {t : Tol K} (h0 : 0 < t.abs) (hr : t.rel < 1 / 2) : ¬ KeyEquivalence (candEqFloat (F := F) t) := by
  obtain ⟨f⟩ := ‹Nonempty F›
  intro h
  have eqv : ∀ x y : K, candEqFloat t ⟨[.fin x], f, true⟩ ⟨[.fin y], f, true⟩ = true ↔ |x - y| ≤ max (t.rel * max |x| |y|) t.abs := by
    intro x y
    unfold candEqFloat floatVecIsEqual
    simp only [List.length_singleton, beq_self_eq_true, List.zip_cons_cons, List.zip_nil_left, List.all_cons, List.all_nil, Bool.and_true, Bool.true_and]
    unfold floatIsEqual Tol.at
    exact decide_eq_true_iff
  have h1 := h.trans ⟨[.fin 0], f, true⟩ ⟨[.fin t.abs], f, true⟩ ⟨[.fin (2 * t.abs)], f, true⟩
    ((eqv _ _).mpr (by rw [zero_sub, abs_neg, abs_of_pos h0]; exact le_max_right _ _))
    ((eqv _ _).mpr (by rw [show t.abs - 2 * t.abs = -t.abs by ring, abs_neg, abs_of_pos h0]; exact le_max_right _ _))
  rw [eqv, zero_sub, abs_neg, abs_zero, abs_of_pos (by linarith : (0 : K) < 2 * t.abs), max_eq_right (by linarith : (0 : K) ≤ 2 * t.abs)] at h1
  rcases le_max_iff.mp h1 with h2 | h2 <;> nlinarith


-- the default tolerances meet the assumptions of `C68_float_partial`, `C68_float_hash` and `C68_float_not_transitive`
example : (⟨1 / 10 ^ 12, 10 / 2 ^ 52⟩ : Tol ℚ).Valid ∧ 0 < (⟨1 / 10 ^ 12, 10 / 2 ^ 52⟩ : Tol ℚ).abs ∧ (⟨1 / 10 ^ 12, 10 / 2 ^ 52⟩ : Tol ℚ).rel < 1 / 2 := by
  refine ⟨⟨?_, ?_⟩, ?_, ?_⟩ <;> norm_num

end Gapp.Props
