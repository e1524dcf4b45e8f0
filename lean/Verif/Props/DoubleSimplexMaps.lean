import Verif.Proofs.DoubleSimplexMaps
import Verif.Props.DoubleRefLines
/-!
# C93: the other mappings to the simplex and the sparse subset in binary64 arithmetic
-/

namespace Gapp.Props
open Gapp.Model Gapp.Spec Gapp.ListAux Dbl

/-! ## The mappings -/

/-- **C93 (`simplexMappingRoot`).** For every point of the unit cube, the result is on the simplex up to rounding, and no coordinate is negative, whatever numbers between 0 and 1 `std::pow` returns. -/
theorem C93_map_root (pow : Dbl → Dbl → Dbl) (hpow : PowInUnit pow) (point : List Dbl) (hn : point.length ≤ 2 ^ 40) (h : ∀ p ∈ point, DblBetween p 0 1) :
    ∃ r, simplexMappingRootD pow point = some r ∧ NearSimplex (point.length + 1) r ∧ ∀ x ∈ r, DblBetween x 0 1 := by
  obtain ⟨x, e, -, -, h1, h2⟩ := simplexMappingRootD_spec pow hpow point hn h
  exact ⟨_, e, h1, h2⟩

/-- **C93 (the values of `simplexMappingRoot`).** The result consists of the differences of successive numbers `x`, followed by 1: the last one is the last coordinate to the power of one over the number
of coordinates, and each of the others is the next one times the coordinate at its place to the power of one over its position, from 1 on. The exponents are accurate up to `2^-52`. -/
theorem C93_map_root_values (pow : Dbl → Dbl → Dbl) (hpow : PowInUnit pow) (point : List Dbl) (hn : point.length ≤ 2 ^ 40) (h : ∀ p ∈ point, DblBetween p 0 1) :
    ∃ x, simplexMappingRootD pow point = some (adjacentDifferenceD (x ++ [.fin 1])) ∧ x.length = point.length ∧
      ∀ (i : Nat) (p : Dbl), point[i]? = some p → ∃ e : ℚ, |e - 1 / (i + 1)| ≤ 2 ^ (-52 : ℤ) ∧
        (i + 1 = point.length → x[i]? = some (pow p (.fin e))) ∧ (∀ y, x[i + 1]? = some y → x[i]? = some (mul y (pow p (.fin e)))) := by
  obtain ⟨x, e, h1, h2, -⟩ := simplexMappingRootD_spec pow hpow point hn h
  exact ⟨x, e, h1, h2⟩

/-- **C93 (`simplexMappingLog`).** For every point whose coordinates are at least 0 and less than 1, no coordinate of the result is negative, and their exact sum differs from 1 by at most `(n + 5) * 2^-52`, for
`n` coordinates, in whatever order `std::reduce` adds the logarithms. Each coordinate is the quotient of the negative logarithm and one positive number, up to rounding. -/
theorem C93_map_log (recip : Bool) (log : Dbl → Dbl) (hlog : LogBelowOne log) (sum : List Dbl → Dbl) (hsum : ReduceContract sum) (point : List Dbl) (hne : point ≠ []) (hn : point.length ≤ 2 ^ 40)
    (h : ∀ p ∈ point, InUnitInterval p) :
    ∃ r, simplexMappingLogD recip log sum point = some r ∧ OnSimplexUpTo ((point.length + 5) * 2 ^ (-52 : ℤ)) point.length r ∧ (∀ x ∈ r, DblBetween x 0 2) ∧
      ∃ s : ℚ, 0 < s ∧ ∀ (i : Nat) (p : Dbl), point[i]? = some p → ∃ f : ℚ, r[i]? = some (.fin f) ∧ |f - Dbl.val (negLogD log p) / s| ≤ 3 / 2 ^ 53 * (Dbl.val (negLogD log p) / s) + 2 ^ (-1075 : ℤ) :=
  simplexMappingLogD_spec recip log hlog sum hsum point hne hn h

/-- **C93 (the logarithm of small numbers).** The logarithm is that of the coordinate, or that of the smallest positive normal number if the coordinate is below it. -/
theorem C93_neg_log (log : Dbl → Dbl) (p : ℚ) : negLogD log (.fin p) = neg (log (.fin (max p (2 ^ (-1022 : ℤ))))) := by
  unfold negLogD smallD
  by_cases h : p < 2 ^ (-1022 : ℤ)
  · rw [if_pos (show Dbl.lt (.fin p) (.fin (2 ^ (-1022 : ℤ))) = true from decide_eq_true h), max_eq_right h.le]
  · rw [if_neg (by intro hc; exact h (of_decide_eq_true hc)), max_eq_left (not_lt.1 h)]

/-- **C93 (negation: all points of the cube).** The assertion of `simplexMappingLog` allows coordinates that are 1, but if all of them are 1, the result is not a number: the logarithms are 0, and so is
their sum. The points of the sequence are below 1 (`C93_generator`). -/
theorem C93_map_log_violated (recip : Bool) (log : Dbl → Dbl) (hlog : log (.fin 1) = .fin 0) (sum : List Dbl → Dbl) (hsum : ReduceContract sum) :
    ∃ point : List Dbl, (∀ p ∈ point, DblBetween p 0 1) ∧ simplexMappingLogD recip log sum point = some [.nan] := by
  refine ⟨[.fin 1], by intro p hp; rw [List.mem_singleton.1 hp]; exact ⟨1, rfl, isDouble_one', by norm_num, le_rfl⟩, ?_⟩
  have e1 : negLogD log (.fin 1) = .fin 0 := by
    rw [C93_neg_log, max_eq_left, hlog]
    · show Dbl.fin (-0) = _
      rw [neg_zero]
    · calc (2 : ℚ) ^ (-1022 : ℤ) ≤ 2 ^ (0 : ℤ) := two_zpow_le (by norm_num)
        _ = 1 := by norm_num
  have e2 : sum [.fin 0] = .fin 0 := by
    obtain ⟨t, et, -, -, -, hl, hu⟩ := reduceSum_err (hsum [.fin 0]) (by norm_num) (by
      intro x hx
      have : x = .fin 0 := by simpa using hx
      rw [this]
      exact ⟨0, rfl, ⟨isBinary53_zero, by norm_num⟩, le_rfl, by norm_num⟩)
    rw [et]
    simp only [List.map_cons, List.map_nil, List.sum_cons, List.sum_nil, Dbl.val, add_zero, mul_zero] at hl hu
    rw [le_antisymm hu hl]
  unfold simplexMappingLogD
  rw [if_pos (inUnitCubeD_of _ (by intro p hp; rw [List.mem_singleton.1 hp]; exact ⟨1, rfl, isDouble_one', by norm_num, le_rfl⟩))]
  simp only [List.map_cons, List.map_nil, e1, e2]
  cases recip <;> simp [divR, div, mul]

/-! ## The generated points -/

/-- **C93 (`quasirandomSimplexPointsRoot`).** -/
theorem C93_points_root (pow : Dbl → Dbl → Dbl) (hpow : PowInUnit pow) (phid : Dbl) (hphid : AtLeastOne phid) (dim n : Nat) (hdim : 0 < dim) (hmax : dim ≤ 2 ^ 40) :
    ∃ pts, quasirandomSimplexPointsD (simplexMappingRootD pow) phid dim n = some pts ∧ pts.length = n ∧ ∀ r ∈ pts, NearSimplex dim r := by
  obtain ⟨a, ha, hp, hok⟩ := qrngCtorD_ok phid hphid (dim - 1) (1 / 2) default_seedD.1.1 default_seedD.2.1 default_seedD.2.2
  unfold quasirandomSimplexPointsD
  rw [if_neg (by omega)]
  refine simplexPointsLoopD_spec _ dim ?_ n _ _ a hp ha hok (by rw [List.length_replicate]; omega)
  intro p hl hx
  obtain ⟨r, e, hr, -⟩ := C93_map_root pow hpow p (by omega) (fun x h => by obtain ⟨q, e, h1, h2, h3⟩ := hx x h; exact ⟨q, e, h1, h2, h3.le⟩)
  rw [hl] at hr
  exact ⟨r, e, hr⟩

/-- **C93 (`quasirandomSimplexPointsLog`).** -/
theorem C93_points_log (recip : Bool) (log : Dbl → Dbl) (hlog : LogBelowOne log) (sum : List Dbl → Dbl) (hsum : ReduceContract sum) (phid : Dbl) (hphid : AtLeastOne phid) (dim n : Nat) (hdim : 0 < dim)
    (hmax : dim ≤ 2 ^ 40) :
    ∃ pts, quasirandomSimplexPointsLogD (simplexMappingLogD recip log sum) phid dim n = some pts ∧ pts.length = n ∧ (∀ r ∈ pts, OnSimplexUpTo ((dim + 5) * 2 ^ (-52 : ℤ)) dim r) ∧
      ∃ draws, drawPoints n (qrngCtorD phid dim (.fin (1 / 2))) = some draws ∧ List.Forall₂ (fun d p => simplexMappingLogD recip log sum d = some p) draws pts := by
  obtain ⟨a, ha, hp, hok⟩ := qrngCtorD_ok phid hphid dim (1 / 2) default_seedD.1.1 default_seedD.2.1 default_seedD.2.2
  unfold quasirandomSimplexPointsLogD
  rw [if_neg (by omega)]
  obtain ⟨pts, e, hn, hall⟩ := simplexPointsLoopD_same (simplexMappingLogD recip log sum) dim ((dim + 5) * 2 ^ (-52 : ℤ)) (by
    intro p hl hx
    obtain ⟨r, e, hr, -⟩ := C93_map_log recip log hlog sum hsum p (by intro h0; rw [h0] at hl; simp at hl; omega) (by omega) hx
    rw [hl] at hr
    exact ⟨r, e, hr⟩) n _ _ a hp ha hok (by rw [List.length_replicate])
  exact ⟨pts, e, hn, hall, simplexPointsLoopD_sequence _ _ n _ pts e⟩

/-! ## The sparse subset -/

/-- **C93 (`pickSparseSubset`).** If the generator returns the requested number of points on the simplex, up to rounding, then the requested number of them is picked. Each of them, except the first one, was one of
the furthest from those picked before it, of the candidates that were left, up to rounding, in whatever order `std::transform_reduce` adds the squares, with or without fused operations. -/
theorem C93_sparse (sumSq : List Dbl → Dbl) (hsum : SquareContract sumSq) (dim n k : Nat) (hd : dim ≠ 0) (hmax : dim ≤ 2 ^ 40) (hn : n ≠ 0) (hk : k ≠ 0) (generator : Nat → Nat → Option (List (List Dbl)))
    (cands : List (List Dbl)) (hg : generator dim (k * n) = some cands) (hc : cands.length = k * n) (e : ℚ) (hs : ∀ c ∈ cands, OnSimplexUpTo e dim c) :
    ∃ picked, pickSparseSubsetD sumSq dim n generator k = some picked ∧ NearlySparse dim cands n picked ∧ ∀ p ∈ picked, OnSimplexUpTo e dim p := by
  have hrow : ∀ c ∈ cands, SmallRow dim c := by
    intro c hm
    refine ⟨(hs c hm).length, fun x hx => ?_⟩
    obtain ⟨q, e, h1, h2, h3⟩ := (hs c hm).coord x hx
    exact ⟨q, e, h1, le_trans (by norm_num) h2, h3⟩
  have hkn : n ≤ k * n := Nat.le_mul_of_pos_left n (by omega)
  have hne : cands ≠ [] := by intro h; rw [h] at hc; simp only [List.length_nil] at hc; omega
  have hperm : ([cands.getLast hne] ++ cands.dropLast).Perm cands := by
    conv_rhs => rw [← List.dropLast_append_getLast hne]
    exact List.perm_append_comm
  have hlast : SmallRow dim (cands.getLast hne) := hrow _ (List.getLast_mem hne)
  have hdists : ∀ l : List (List Dbl), (∀ c ∈ l, SmallRow dim c) → ∃ ds, l.mapM (euclideanDistanceSqD sumSq (cands.getLast hne)) = some ds ∧ ds.length = l.length ∧ (∀ x ∈ ds, ∃ d : ℚ, x = .fin d ∧ True) ∧
      ∀ (j : Nat) (c : List Dbl) (d : ℚ), l[j]? = some c → ds[j]? = some (.fin d) →
        (1 - (dim + 3) / 2 ^ 52) * sqDistQ (cands.getLast hne) c - (dim + 1) * 2 ^ (-1074 : ℤ) ≤ d ∧ d ≤ (1 + (dim + 3) / 2 ^ 52) * sqDistQ (cands.getLast hne) c + (dim + 1) * 2 ^ (-1074 : ℤ) := by
    intro l
    induction l with
    | nil => intro _; exact ⟨[], rfl, rfl, by simp, by simp⟩
    | cons c l ih =>
      intro hl
      obtain ⟨ds, e1, h1, h2, h3⟩ := ih (fun c hm => hl c (List.mem_cons_of_mem _ hm))
      obtain ⟨t, et, ht⟩ := euclideanDistanceSqD_err sumSq hsum dim hmax _ c hlast (hl c List.mem_cons_self)
      refine ⟨.fin t :: ds, ?_, by simp [h1], ?_, ?_⟩
      · rw [List.mapM_cons, et, e1]
        rfl
      · intro x hx
        rcases List.mem_cons.1 hx with rfl | hx
        · exact ⟨t, rfl, trivial⟩
        · exact h2 x hx
      · intro j c' d hj hd
        cases j with
        | zero => cases hj; cases hd; exact ht
        | succ j => exact h3 j c' d hj hd
  obtain ⟨ds, eds, dlen, dfin, dval⟩ := hdists cands.dropLast (fun c hm => hrow c (List.mem_of_mem_dropLast hm))
  obtain ⟨s, e1, hinv, hlen⟩ := sparseLoopD_spec sumSq hsum dim hmax cands hrow (n - 1) ⟨[cands.getLast hne], cands.dropLast, ds⟩ (by
    refine ⟨hperm, dlen, dfin, ?_, ?_⟩
    · intro j c d hj hd
      obtain ⟨h1, h2⟩ := dval j c d hj hd
      exact ⟨⟨_, List.mem_singleton.2 rfl, h1⟩, fun a ha => by rw [List.mem_singleton.mp ha]; exact h2⟩
    · intro i p hi hp
      have := (List.getElem?_eq_some_iff.mp hp).1
      simp only [List.length_singleton] at this
      omega) (by dsimp only; rw [List.length_dropLast, hc]; omega)
  refine ⟨s.points, ?_, ⟨?_, s.candidates, hinv.perm, hinv.greedy⟩, fun p hp => hs p (hinv.perm.mem_iff.1 (List.mem_append_left _ hp))⟩
  · unfold pickSparseSubsetD
    rw [if_neg (by simp [hd, hn]), hg]
    simp only [Option.bind_eq_bind, Option.bind_some, List.getLast?_eq_some_getLast hne, eds, e1]
    rfl
  · rw [hlen]
    simp only [List.length_singleton]
    omega

/-- **C93 (no points or no dimensions).** The generator is not called then. -/
theorem C93_sparse_empty (sumSq : List Dbl → Dbl) (dim n k : Nat) (generator : Nat → Nat → Option (List (List Dbl))) (h : dim = 0 ∨ n = 0) : pickSparseSubsetD sumSq dim n generator k = some [] := by
  unfold pickSparseSubsetD
  rw [if_pos (by rcases h with rfl | rfl <;> simp)]

/-- **C93 (no dimensions).** -/
theorem C93_points_log_empty (F : List Dbl → Option (List Dbl)) (phid : Dbl) (n : Nat) : quasirandomSimplexPointsLogD F phid 0 n = some (List.replicate n []) := rfl

/-- **C93 (the sparse subset of the default points).** -/
theorem C93_sparse_mirror (sumSq : List Dbl → Dbl) (hsum : SquareContract sumSq) (phid : Dbl) (hphid : AtLeastOne phid) (dim n k : Nat) (hd : 0 < dim) (hmax : dim ≤ 2 ^ 40) (hn : 0 < n) (hk : 0 < k) :
    ∃ picked fuel, (∀ j, pickSparseSubsetD sumSq dim n (quasirandomSimplexPointsD (simplexMappingMirrorD (fuel + j)) phid) k = some picked) ∧ picked.length = n ∧ ∀ p ∈ picked, NearSimplex dim p := by
  obtain ⟨cands, fuel, e, hl, hall⟩ := C93_points_mirror phid hphid dim (k * n) hd hmax
  obtain ⟨picked, e0, h1, h2⟩ := C93_sparse sumSq hsum dim n k (by omega) hmax (by omega) (by omega) (quasirandomSimplexPointsD (simplexMappingMirrorD fuel) phid) cands (e 0) hl _ hall
  refine ⟨picked, fuel, fun j => ?_, h1.1, h2⟩
  rw [← e0]
  unfold pickSparseSubsetD
  rw [e j, ← e 0, Nat.add_zero]

/-- **C93 (lines of any generator).** Points that are on the simplex up to rounding become reference lines of length 1 up to rounding that have the same directions, in the same order. -/
theorem C93_lines_of_points (recip fused : Bool) (sqrt : Dbl → Dbl) (hsqrt : SqrtContract sqrt) (generator : Nat → Nat → Option (List (List Dbl))) (dim n : Nat) (hmax : dim ≤ 2 ^ 40) (pts : List (List Dbl))
    (hg : generator dim n = some pts) (e : ℚ) (he : e ≤ 1 / 1000) (hall : ∀ p ∈ pts, OnSimplexUpTo e dim p) :
    ∃ lines, generateReferencePointsD recip fused sqrt generator dim n = some lines ∧ List.Forall₂ SameDirection pts lines ∧ ∀ line ∈ lines, NearUnit dim line ∧ ∀ l ∈ line, UnitEntry l := by
  refine ⟨pts.map (normalizeVectorD recip fused sqrt), by unfold generateReferencePointsD; rw [hg]; rfl, ?_, ?_⟩
  · rw [List.forall₂_map_right_iff, List.forall₂_same]
    exact fun p hp => (normalizeVectorD_spec recip fused sqrt hsqrt dim hmax p he (hall p hp)).2.2
  · intro line hline
    obtain ⟨p, hp, rfl⟩ := List.mem_map.1 hline
    exact ⟨(normalizeVectorD_spec recip fused sqrt hsqrt dim hmax p he (hall p hp)).1, (normalizeVectorD_spec recip fused sqrt hsqrt dim hmax p he (hall p hp)).2.1⟩

/-! ## Examples -/

/-- A power function that meets the requirement. -/
theorem example_powInUnit : PowInUnit (fun x _ => x) := fun _ _ h _ => h

/-- A logarithm that meets the requirement: it is -1 below 1. -/
theorem example_log : LogBelowOne (fun _ => .fin (-1)) :=
  fun _ _ _ _ => ⟨-1, rfl, ⟨⟨-1, 0, by norm_num, by norm_num, by norm_num⟩, lt_two_pow_1024 (k := 0) (by norm_num) (by norm_num)⟩, by norm_num, by norm_num⟩

/-- The sum from left to right. -/
def leftSum (l : List Dbl) : Dbl := l.foldl add (.fin 0)

theorem leftSum_contract : ReduceContract leftSum := by
  have h : ∀ (l m : List Dbl) (s : Dbl), ReduceSum m s → ReduceSum (m ++ l) (l.foldl add s) := by
    intro l
    induction l with
    | nil => intro m s hm; simpa using hm
    | cons x l ih =>
      intro m s hm
      have := ih (m ++ [x]) (add s x) (.add hm (.single x) (List.Perm.refl _))
      simpa using this
  exact fun l => h l [.fin 0] (.fin 0) (.single _)

/-- The sum of the squares from left to right, with fused operations. -/
def leftSquares (l : List Dbl) : Dbl := l.foldl (fun s x => mulAdd true x x s) (.fin 0)

theorem leftSquares_contract : SquareContract leftSquares := by
  have h : ∀ (l m : List Dbl) (s : Dbl), SquareSum m s → SquareSum (m ++ l) (l.foldl (fun s x => mulAdd true x x s) s) := by
    intro l
    induction l with
    | nil => intro m s hm; simpa using hm
    | cons x l ih =>
      intro m s hm
      have := ih (m ++ [x]) (mulAdd true x x s) (.fused hm (List.perm_append_comm))
      simpa using this
  have h0 : SquareSum [.fin 0] (.fin 0) := by
    have := SquareSum.single (.fin 0)
    rwa [show mul (.fin 0) (.fin 0) = .fin 0 by decide +kernel] at this
  exact fun l => h l [.fin 0] (.fin 0) h0

example : ∃ pts, quasirandomSimplexPointsD (simplexMappingRootD (fun x _ => x)) (.fin (3 / 2)) 3 5 = some pts ∧ pts.length = 5 ∧ ∀ r ∈ pts, NearSimplex 3 r :=
  C93_points_root _ example_powInUnit _ atLeastOne_three_halves 3 5 (by norm_num) (by norm_num)
example : simplexMappingRootD (fun x _ => x) [.fin (1 / 4), .fin (1 / 2)] = some [.fin (1 / 8), .fin (3 / 8), .fin (1 / 2)] := by decide +kernel
example : simplexMappingLogD true (fun _ => .fin (-1)) leftSum [.fin (1 / 4), .fin (1 / 2)] = some [.fin (1 / 2), .fin (1 / 2)] := by decide +kernel
example : ∃ point : List Dbl, (∀ p ∈ point, DblBetween p 0 1) ∧ simplexMappingLogD true (fun _ => .fin 0) leftSum point = some [.nan] := C93_map_log_violated true _ rfl leftSum leftSum_contract
example : ∃ pts, quasirandomSimplexPointsLogD (simplexMappingLogD true (fun _ => .fin (-1)) leftSum) (.fin (3 / 2)) 3 5 = some pts ∧ pts.length = 5 :=
  have ⟨pts, e, h, _⟩ := C93_points_log true _ example_log leftSum leftSum_contract _ atLeastOne_three_halves 3 5 (by norm_num) (by norm_num)
  ⟨pts, e, h⟩
example : ∃ picked fuel, (∀ j, pickSparseSubsetD leftSquares 3 4 (quasirandomSimplexPointsD (simplexMappingMirrorD (fuel + j)) (.fin (3 / 2))) 10 = some picked) ∧ picked.length = 4 ∧ ∀ p ∈ picked, NearSimplex 3 p :=
  C93_sparse_mirror leftSquares leftSquares_contract _ atLeastOne_three_halves 3 4 10 (by norm_num) (by norm_num) (by norm_num) (by norm_num)
example : pickSparseSubsetD leftSquares 1 2 (fun _ _ => some [[.fin 1], [.fin (1 / 2)], [.fin (1 / 4)], [.fin 0]]) 2 = some [[.fin 0], [.fin 1]] := by decide +kernel

end Gapp.Props
