import Mathlib.Algebra.Order.Field.Rat
import Verif.Model.Encoding
import Verif.Props.Rng
import Verif.Proofs.GaLoop
/-!
# C51: initial populations
-/

namespace Gapp.Props
open Gapp.Model

/-- **C51**: the initial population consists of the first candidates supplied by the user, in their order, filled up with generated ones that are not evaluated. -/
theorem C51_initial_population {G K A S V : Type} [DecidableEq G] [CommRing K] [LinearOrder K] (env : GaEnv G K A S V) (initial : List (Cand G (FVec K))) :
    (generatePopulation env initial).length = env.popSize ∧
      generatePopulation env initial = initial.take env.popSize ++ (List.range (env.popSize - initial.length)).map (fun j => ⟨env.generate (1 + j), [], false⟩) := by
  exact ⟨generatePopulation_length env initial, generatePopulation_eq env initial⟩

/-- The genes of a chromosome are in their bounds. -/
def WithinBounds {α : Type} [LE α] (bounds : List (α × α)) (x : List α) : Prop :=
  x.length = bounds.length ∧ ∀ (i : Nat) (g : α) (b : α × α), x[i]? = some g → bounds[i]? = some b → b.1 ≤ g ∧ g ≤ b.2

theorem mapM_range {α : Type} (n : Nat) (f : Nat → Option α) (P : Nat → α → Prop) (h : ∀ i, i < n → ∃ y, f i = some y ∧ P i y) :
    ∃ l, (List.range n).mapM f = some l ∧ l.length = n ∧ ∀ (i : Nat) (y : α), l[i]? = some y → P i y := by
  induction n with
  | zero => exact ⟨[], rfl, rfl, by simp⟩
  | succ n ih =>
    obtain ⟨l, h1, h2, h3⟩ := ih (fun i hi => h i (by omega))
    obtain ⟨y, h4, h5⟩ := h n (by omega)
    refine ⟨l ++ [y], ?_, by simp [h2], ?_⟩
    · rw [List.range_succ, List.mapM_append, h1]
      simp [h4]
    · intro i z hz
      rw [List.getElem?_append] at hz
      split at hz
      · exact h3 i z hz
      · rename_i hi
        obtain ⟨hl, rfl⟩ := List.getElem?_eq_some_iff.mp hz
        have : i = n := by simp at hl; omega
        subst this
        simpa using h5

/-- C51: a generated integer chromosome has the length of the bounds and every gene is between its bounds. -/
theorem C51_integer (bounds : List (Int × Int)) (hb : ∀ b ∈ bounds, b.1 ≤ b.2) (us : Nat → Nat) :
    ∃ x, generateInteger bounds.length bounds us = some x ∧ WithinBounds bounds x := by
  obtain ⟨l, h1, h2, h3⟩ := mapM_range bounds.length (fun idx => do
      let b ← bounds[idx]?
      randomInt b.1 b.2 (us idx)) (fun i y => ∀ b, bounds[i]? = some b → b.1 ≤ y ∧ y ≤ b.2) (by
    intro i hi
    have hle := hb bounds[i] (List.getElem_mem hi)
    refine ⟨_, by simp [List.getElem?_eq_getElem hi, randomInt, hle]; rfl, ?_⟩
    intro b hbi
    rw [List.getElem?_eq_getElem hi] at hbi
    obtain rfl := Option.some.inj hbi
    have m1 := Int.emod_nonneg (us i : Int) (b := bounds[i].2 - bounds[i].1 + 1) (by omega)
    have m2 := Int.emod_lt_of_pos (us i : Int) (b := bounds[i].2 - bounds[i].1 + 1) (by omega)
    omega)
  exact ⟨l, h1, h2, fun i g b hg hb' => h3 i g hg b hb'⟩

/-- C51: every integer chromosome in the bounds can be generated. -/
theorem C51_integer_onto (bounds : List (Int × Int)) (x : List Int) (h : WithinBounds bounds x) : ∃ us, generateInteger bounds.length bounds us = some x := by
  refine ⟨fun i => (x.getD i 0 - (bounds.getD i (0, 0)).1).toNat, ?_⟩
  obtain ⟨l, h1, h2, h3⟩ := mapM_range bounds.length (fun idx => do
      let b ← bounds[idx]?
      randomInt b.1 b.2 ((fun i => (x.getD i 0 - (bounds.getD i (0, 0)).1).toNat) idx)) (fun i y => x[i]? = some y) (by
    intro i hi
    have hx : i < x.length := by rw [h.1]; exact hi
    obtain ⟨b1, b2⟩ := h.2 i x[i] bounds[i] (List.getElem?_eq_getElem hx) (List.getElem?_eq_getElem hi)
    refine ⟨x[i], ?_, List.getElem?_eq_getElem hx⟩
    have hle := le_trans b1 b2
    simp only [List.getElem?_eq_getElem hi, Option.bind_eq_bind, Option.bind_some, randomInt, hle, if_true, List.getD_eq_getElem?_getD, List.getElem?_eq_getElem hx, Option.getD_some, Option.some.injEq]
    rw [Int.toNat_of_nonneg (by omega), Int.emod_eq_of_lt (by omega) (by omega)]
    omega)
  refine h1.trans (congrArg some ?_)
  apply List.ext_getElem?
  intro i
  cases hi : l[i]? with
  | none =>
    rw [List.getElem?_eq_none_iff] at hi
    exact (List.getElem?_eq_none (by rw [h.1]; omega)).symm
  | some y => exact (h3 i y hi).symm

/-- C51: a generated real chromosome has the length of the bounds and every gene is between its bounds, in exact arithmetic. -/
theorem C51_real_partial {K : Type} [Field K] [LinearOrder K] [IsStrictOrderedRing K] (bounds : List (K × K)) (hb : ∀ b ∈ bounds, b.1 ≤ b.2) (xs : Nat → BitVec 64) :
    ∃ x, generateReal bounds.length bounds xs = some x ∧ WithinBounds bounds x := by
  obtain ⟨l, h1, h2, h3⟩ := mapM_range bounds.length (fun i => do
      let b ← bounds[i]?
      if b.1 ≤ b.2 then randomRealIn b.1 b.2 (xs i) else none) (fun i y => ∀ b, bounds[i]? = some b → b.1 ≤ y ∧ y ≤ b.2) (by
    intro i hi
    have hle := hb bounds[i] (List.getElem_mem hi)
    obtain ⟨y, hy1, hy2, hy3, -⟩ := C36_random_real_in_range_partial bounds[i].1 bounds[i].2 hle (xs i)
    refine ⟨y, by simp [List.getElem?_eq_getElem hi, hle, hy1], ?_⟩
    intro b hbi
    rw [List.getElem?_eq_getElem hi] at hbi
    obtain rfl := Option.some.inj hbi
    exact ⟨hy2, hy3⟩)
  exact ⟨l, by rw [generateReal, if_pos rfl]; exact h1, h2, fun i g b hg hb' => h3 i g hg b hb'⟩

/-- C51: a generated binary chromosome has the right length, and consists of the random bits in the order they are drawn. -/
theorem C51_binary (n : Nat) (gen : List (BitVec 64)) (hn : n ≤ 63 * gen.length) :
    ∃ x, generateBinary n 1#64 gen = some x ∧ x.length = n ∧ ∀ i < n, x[i]? = gen[i / 63]?.map (fun w => w.getLsbD (i % 63)) := by
  obtain ⟨bs, pool, h1, h2, h3⟩ := C53_bool_bits n gen hn
  exact ⟨bs, by rw [generateBinary, h1]; rfl, h2, h3⟩

theorem swapElems_perm {α : Type} (v : List α) (i j : Nat) : (swapElems v i j).Perm v := by
  unfold swapElems
  split
  · rename_i x y hx hy
    obtain ⟨hi, rfl⟩ := List.getElem?_eq_some_iff.mp hx
    obtain ⟨hj, rfl⟩ := List.getElem?_eq_some_iff.mp hy
    exact List.set_set_perm hi hj
  · exact List.Perm.refl _

/-- C51: a generated permutation is a permutation of `0, ..., n - 1`. -/
theorem C51_permutation (n : Nat) (us : Nat → Nat) : (generatePermutation n us).Perm (List.range n) := by
  unfold generatePermutation stdShuffle
  generalize List.range ((List.range n).length - 1) = ks
  generalize List.range n = v
  induction ks generalizing v with
  | nil => exact List.Perm.refl _
  | cons k ks ih =>
    rw [List.foldl_cons]
    exact (ih _).trans (swapElems_perm _ _ _)

example : generatePermutation 4 (fun k => k + 1) = [0, 1, 2, 3] ∧ generatePermutation 4 (fun _ => 0) = [3, 0, 1, 2] := by decide
example : generateInteger 3 [(0, 9), (-5, 5), (2, 2)] (fun _ => 17) = some [7, 1, 2] := by decide
example : WithinBounds [((0 : Int), 9), (-5, 5), (2, 2)] [7, 1, 2] := by
  obtain ⟨x, h1, h2⟩ := C51_integer [(0, 9), (-5, 5), (2, 2)] (by decide) (fun _ => 17)
  rw [show generateInteger _ [(0, 9), (-5, 5), (2, 2)] (fun _ => 17) = some [7, 1, 2] by decide] at h1
  obtain rfl := Option.some.inj h1
  exact h2
example : generateBinary 3 1#64 [0b110#64] = some [false, true, true] := by decide
example : generateReal 2 [((0 : ℚ), 1), (-2, 2)] (fun _ => 1#64 <<< 63) = some [1 / 2, 0] := by
  decide +kernel

end Gapp.Props
