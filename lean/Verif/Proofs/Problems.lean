import Verif.Spec.Problems
import Verif.Proofs.Matrix
import Verif.Proofs.ListAux
import Mathlib.Tactic.Ring
import Mathlib.Tactic.Linarith
import Mathlib.Tactic.FieldSimp
import Mathlib.Algebra.Order.Field.Basic
/-!
# Proofs about the benchmark problems
-/

namespace Gapp.Model

open Gapp.Spec

theorem getD_lt {α : Type} {l : List α} {d : α} {i : Nat} (h : i < l.length) : l.getD i d = l[i] := by
  rw [List.getD_eq_getElem?_getD, List.getElem?_eq_getElem h]; rfl

section Decode

variable {K : Type} [Field K]

theorem bitsNumber_nil : bitsNumber [] = 0 := rfl

theorem bitsNumber_snoc (bits : List Bool) (b : Bool) : bitsNumber (bits ++ [b]) = bitsNumber bits * 2 + b.toNat := by
  unfold bitsNumber
  rw [List.reverse_append, List.reverse_singleton, List.singleton_append, List.map_cons, Nat.ofDigits_cons]
  push_cast
  rw [Nat.add_comm, Nat.mul_comm]

theorem bitsAccumulate_eq (bits : List Bool) : (bitsAccumulate bits : K) = (bitsNumber bits : Nat) := by
  induction bits using Gapp.ListAux.snoc_induction with
  | nil => simp [bitsAccumulate, bitsNumber_nil]
  | append_singleton xs x ih =>
    unfold bitsAccumulate at ih ⊢
    rw [List.foldl_append, ih, bitsNumber_snoc]
    cases x <;> simp

theorem bitsNumber_lt (bits : List Bool) : bitsNumber bits < 2 ^ bits.length := by
  induction bits using Gapp.ListAux.snoc_induction with
  | nil => simp [bitsNumber_nil]
  | append_singleton xs x ih =>
    rw [bitsNumber_snoc, List.length_append, List.length_singleton, Nat.pow_succ]
    have := Bool.toNat_lt x
    omega

theorem bitsNumber_replicate_false (n : Nat) : bitsNumber (List.replicate n false) = 0 := by
  induction n with
  | zero => rfl
  | succ n ih => rw [List.replicate_succ', bitsNumber_snoc, ih]; rfl

theorem bitsNumber_replicate_true (n : Nat) : bitsNumber (List.replicate n true) + 1 = 2 ^ n := by
  induction n with
  | zero => rfl
  | succ n ih =>
    rw [List.replicate_succ', bitsNumber_snoc, Nat.pow_succ, ← ih]
    show _ * 2 + 1 + 1 = _
    ring

theorem decodeVar_eq (bchrom : List Bool) (lo up : K) (n i : Nat) :
    decodeVar bchrom lo up n i = (bitsNumber (varBitsOf bchrom n i) : Nat) / (2 ^ n - 1) * (up - lo) + lo := by
  unfold decodeVar varBitsOf
  rw [show (i + 1) * n - i * n = n by rw [Nat.succ_mul]; omega, bitsAccumulate_eq]

theorem varBitsOf_length (bchrom : List Bool) (n k i : Nat) (h : bchrom.length = n * k) (hi : i < k) :
    (varBitsOf bchrom n i).length = n := by
  unfold varBitsOf
  rw [List.length_take, List.length_drop, h]
  have : (i + 1) * n ≤ k * n := Nat.mul_le_mul_right _ hi
  rw [Nat.succ_mul] at this
  rw [Nat.mul_comm n k]
  omega

end Decode

section Strings

theorem stringFinderLoop_eq (target : List Nat) (chrom : List Int) (hl : chrom.length = target.length) :
    ∀ (n i fit : Nat), i + n = chrom.length → stringFinderLoop target chrom i fit n =
      some (fit + ((chrom.zip target).drop i).countP (fun p => toByte p.1 = p.2))
  | 0, i, fit, h => by
    unfold stringFinderLoop
    rw [List.drop_eq_nil_of_le (by simp; omega)]
    rfl
  | n + 1, i, fit, h => by
    have h1 : i < chrom.length := by omega
    have h2 : i < target.length := by omega
    unfold stringFinderLoop
    rw [List.getElem?_eq_getElem h1, List.getElem?_eq_getElem h2]
    show stringFinderLoop _ _ _ _ _ = _
    rw [stringFinderLoop_eq target chrom hl n (i + 1) _ (by omega)]
    rw [List.drop_eq_getElem_cons (i := i) (by simp; omega), List.countP_cons, List.getElem_zip]
    simp only [decide_eq_true_eq]
    congr 1
    omega

end Strings

section Tsp

theorem tspRowLoop_eq (d : Nat → Nat → ℝ) (i : Nat) : ∀ (n : Nat) (m : Mat ℝ) (j : Nat),
    tspRowLoop d m i j n = matAssignFrom m i j ((List.range' j n).map (d i))
  | 0, m, j => rfl
  | n + 1, m, j => by
    rw [List.range'_succ, List.map_cons]
    unfold tspRowLoop matAssignFrom
    cases matSet m i j (d i j) with
    | none => rfl
    | some m' => exact tspRowLoop_eq d i n m' (j + 1)

theorem tspFillLoop_rep (d : Nat → Nat → ℝ) (c : Nat) : ∀ (n i : Nat) (m : Mat ℝ) (t : List (List ℝ)), MatRep m t → m.ncols = c →
    i + n = t.length → ∃ m', tspFillLoop d m i n = some m' ∧ m'.ncols = c ∧
      MatRep m' (t.take i ++ (List.range' i n).map (fun i => (List.range c).map (d i)))
  | 0, i, m, t, h, hc, hn => by
    refine ⟨m, rfl, hc, ?_⟩
    rw [List.take_of_length_le (by omega)]
    simpa using h
  | n + 1, i, m, t, h, hc, hn => by
    have hi : t[i]? = some t[i] := List.getElem?_eq_getElem (by omega)
    obtain ⟨m1, e1, c1, h1⟩ := matAssignFrom_rep ((List.range' 0 m.ncols).map (d i)) h hi 0 (by simp)
    obtain ⟨m2, e2, c2, h2⟩ := tspFillLoop_rep d c n (i + 1) m1 _ h1 (by rw [c1, hc]) (by rw [List.length_set]; omega)
    refine ⟨m2, ?_, c2, ?_⟩
    · unfold tspFillLoop
      rw [tspRowLoop_eq, e1]
      exact e2
    · have hrl := rep_row_len h hi
      have e : List.take (i + 1) (t.set i (List.take 0 t[i] ++ List.map (d i) (List.range' 0 m.ncols) ++
          List.drop (0 + (List.map (d i) (List.range' 0 m.ncols)).length) t[i])) =
          t.take i ++ [(List.range c).map (d i)] := by
        rw [List.take_zero, List.nil_append, List.length_map, List.length_range', Nat.zero_add,
          List.drop_eq_nil_of_le (by omega), List.append_nil, hc, ← List.range_eq_range', List.take_succ,
          List.take_set_of_le (Nat.le_refl i), List.getElem?_set_self (by omega)]
        rfl
      rw [e, List.append_assoc] at h2
      rw [List.range'_succ, List.map_cons]
      exact h2

theorem tspMatrix_rep (cities : List (ℝ × ℝ)) (hne : cities ≠ []) :
    ∃ m, tspMatrix cities = some m ∧ m.ncols = cities.length ∧
      MatRep m ((List.range cities.length).map (fun i => (List.range cities.length).map (cityDist cities i))) := by
  have h0 : MatRep (matCtor cities.length cities.length (0 : ℝ))
      (List.replicate cities.length (List.replicate cities.length 0)) := by
    obtain ⟨m, e, h⟩ := matStep_rep (0 : ℝ) rep_empty_mat (.ctor cities.length cities.length 0) (List.length_pos_iff.mpr hne)
    cases e
    exact h
  obtain ⟨m, e, c, h⟩ := tspFillLoop_rep (cityDist cities) cities.length cities.length 0 _ _ h0 rfl (by simp)
  refine ⟨m, ?_, c, ?_⟩
  · unfold tspMatrix
    dsimp only
    rw [rep_rows h0, List.length_replicate]
    exact e
  · rw [List.take_zero, List.nil_append, ← List.range_eq_range'] at h
    exact h

theorem tsp_get {cities : List (ℝ × ℝ)} {m : Mat ℝ} (hc : m.ncols = cities.length)
    (h : MatRep m ((List.range cities.length).map (fun i => (List.range cities.length).map (cityDist cities i))))
    {i j : Nat} (hi : i < cities.length) (hj : j < cities.length) : matRowGet m i j = some (dist2 cities[i] cities[j]) := by
  have hr : ((List.range cities.length).map (fun i => (List.range cities.length).map (cityDist cities i)))[i]? =
      some ((List.range cities.length).map (cityDist cities i)) := by
    rw [List.getElem?_map, List.getElem?_range hi]; rfl
  unfold matRowGet
  rw [matRow_rep h hr]
  show ((List.range cities.length).map (cityDist cities i))[j]? = _
  rw [List.getElem?_map, List.getElem?_range hj]
  show some (cityDist cities i j) = _
  unfold cityDist dist2
  rw [getD_lt hi, getD_lt hj]

theorem pathLength_append_cons (ps : List (ℝ × ℝ)) (p q : ℝ × ℝ) (qs : List (ℝ × ℝ)) :
    pathLength (ps ++ p :: q :: qs) = pathLength (ps ++ [p]) + dist2 p q + pathLength (q :: qs) := by
  induction ps with
  | nil => simp [pathLength]
  | cons a ps ih =>
    cases ps with
    | nil => simp [pathLength]; ring
    | cons b ps =>
      simp only [List.cons_append, pathLength] at ih ⊢
      rw [ih]; ring

/-- The points of the cities. -/
def pointsOf (cities : List (ℝ × ℝ)) (chrom : List Nat) : List (ℝ × ℝ) := chrom.map (fun i => cities.getD i (0, 0))

theorem tspLoop_eq {cities : List (ℝ × ℝ)} {m : Mat ℝ} (hc : m.ncols = cities.length)
    (h : MatRep m ((List.range cities.length).map (fun i => (List.range cities.length).map (cityDist cities i))))
    (chrom : List Nat) (hch : ∀ a ∈ chrom, a < cities.length) :
    ∀ (n i : Nat) (acc : ℝ), i + n + 1 = chrom.length →
      tspLoop m chrom i acc n = some (acc + pathLength (pointsOf cities (chrom.drop i)))
  | 0, i, acc, hn => by
    unfold tspLoop
    rw [List.drop_eq_getElem_cons (by omega), List.drop_eq_nil_of_le (by omega)]
    simp [pointsOf, pathLength]
  | n + 1, i, acc, hn => by
    have h1 : i < chrom.length := by omega
    have h2 : i + 1 < chrom.length := by omega
    unfold tspLoop
    rw [List.getElem?_eq_getElem h1, List.getElem?_eq_getElem h2]
    have ha := hch chrom[i] (List.getElem_mem h1)
    have hb := hch chrom[i + 1] (List.getElem_mem h2)
    show (do let x ← matRowGet m chrom[i] chrom[i + 1]; tspLoop m chrom (i + 1) (acc + x) n) = _
    rw [tsp_get hc h ha hb]
    show tspLoop m chrom (i + 1) _ n = _
    rw [tspLoop_eq hc h chrom hch n (i + 1) _ (by omega), List.drop_eq_getElem_cons h1, List.drop_eq_getElem_cons h2]
    simp only [pointsOf, List.map_cons, pathLength, getD_lt ha, getD_lt hb]
    rw [add_assoc]

theorem dist2_comm (p q : ℝ × ℝ) : dist2 p q = dist2 q p := by
  unfold dist2
  congr 1
  ring

theorem pathLength_snoc (ps : List (ℝ × ℝ)) (p q : ℝ × ℝ) : pathLength (ps ++ [p, q]) = pathLength (ps ++ [p]) + dist2 p q := by
  rw [pathLength_append_cons]
  simp [pathLength]

theorem pathLength_reverse (ps : List (ℝ × ℝ)) : pathLength ps.reverse = pathLength ps := by
  induction ps with
  | nil => rfl
  | cons p ps ih =>
    cases ps with
    | nil => rfl
    | cons q ps =>
      rw [List.reverse_cons, List.reverse_cons, List.append_assoc, List.singleton_append, pathLength_snoc, ← List.reverse_cons, ih]
      show _ = dist2 p q + pathLength (q :: ps)
      rw [dist2_comm q p]; ring

theorem pathLength_nonneg : ∀ (ps : List (ℝ × ℝ)), 0 ≤ pathLength ps
  | [] => le_rfl
  | [_] => le_rfl
  | p :: q :: ps => add_nonneg (Real.sqrt_nonneg _) (pathLength_nonneg (q :: ps))

theorem tspInvoke_eq (cities : List (ℝ × ℝ)) (h2 : 2 ≤ cities.length) (chrom : List Nat) (hlen : chrom.length = cities.length - 1)
    (hch : ∀ a ∈ chrom, a < cities.length) :
    tspInvoke cities chrom = some (-tourLength (cities.getD (cities.length - 1) (0, 0)) (pointsOf cities chrom)) := by
  obtain ⟨m, e, hc, h⟩ := tspMatrix_rep cities (List.ne_nil_of_length_pos (by omega))
  have hrows : matRows m = cities.length := by rw [rep_rows h]; simp
  obtain ⟨a, as, rfl⟩ := List.exists_cons_of_length_pos (l := chrom) (by omega)
  have hl := tspLoop_eq hc h (a :: as) hch (cities.length - 1 - 1) 0 0 (by omega)
  have hb : (a :: as).getLast? = some ((a :: as).getLast (by simp)) := List.getLast?_eq_some_getLast (by simp)
  generalize hbb : (a :: as).getLast (by simp) = b at hb
  have hbm : b ∈ a :: as := by rw [← hbb]; exact List.getLast_mem _
  have ga := tsp_get hc h (i := cities.length - 1) (by omega) (hch a (List.mem_cons_self ..))
  have gb := tsp_get hc h (i := cities.length - 1) (by omega) (hch b hbm)
  unfold tspInvoke
  rw [if_neg (by omega), e]
  show (do
    let dist ← tspLoop m (a :: as) 0 0 (cities.length - 1 - 1)
    let front ← (a :: as).head?
    let back ← (a :: as).getLast?
    let x ← matRowGet m (matRows m - 1) front
    let y ← matRowGet m (matRows m - 1) back
    some (-(dist + x + y))) = _
  rw [hl, hb, hrows, List.head?_cons]
  show (do
    let x ← matRowGet m (cities.length - 1) a
    let y ← matRowGet m (cities.length - 1) b
    some (-(0 + pathLength (pointsOf cities ((a :: as).drop 0)) + x + y))) = _
  rw [ga, gb]
  show some _ = some _
  congr 2
  have hsplit : pointsOf cities (a :: as) = pointsOf cities (a :: as).dropLast ++ [cities.getD b (0, 0)] := by
    conv => lhs; rw [← List.dropLast_append_getLast (l := a :: as) (by simp), hbb]
    simp [pointsOf]
  unfold tourLength
  rw [getD_lt (show cities.length - 1 < cities.length by omega)]
  have e1 : pathLength (cities[cities.length - 1] :: pointsOf cities (a :: as) ++ [cities[cities.length - 1]]) =
      dist2 cities[cities.length - 1] (cities.getD a (0, 0)) + pathLength (pointsOf cities (a :: as) ++ [cities[cities.length - 1]]) := by
    simp [pointsOf, pathLength]
  rw [e1]
  conv => rhs; rw [hsplit, List.append_assoc, List.singleton_append, pathLength_snoc, ← hsplit]
  rw [List.drop_zero, getD_lt (hch a (List.mem_cons_self ..)), getD_lt (hch b hbm), dist2_comm (cities[b]'(hch b hbm))]
  ring

end Tsp

end Gapp.Model
