import Verif.Proofs.DoubleUnitLines
import Verif.Props.DoubleNsga3
import Verif.Props.DoubleStats
/-!
# C93: the reference lines of NSGA-III in binary64 arithmetic
-/

namespace Gapp.Props
open Gapp.Model Gapp.Spec Gapp.ListAux Dbl

/-! ## The quasi-random generator -/

/-- **C93 (the generator).** However many points are drawn, in every dimension and for every seed up to `2^63`, every call is defined and every coordinate is a number that is at least 0 and
less than 1; `phid` is any number that is at least 1, or infinity. -/
theorem C93_generator (phid : Dbl) (hphid : AtLeastOne phid) (dim : Nat) (seed : ℚ) (hs : IsDouble seed) (s0 : 0 ≤ seed) (s1 : seed ≤ 2 ^ 63) (n : Nat) :
    ∃ pts, drawPoints n (qrngCtorD phid dim (.fin seed)) = some pts ∧ pts.length = n ∧ ∀ pt ∈ pts, pt.length = dim ∧ ∀ x ∈ pt, InUnitInterval x := by
  obtain ⟨a, ha, hp, hok⟩ := qrngCtorD_ok phid hphid dim seed hs.1 s0 s1
  obtain ⟨pts, e, hn, hall⟩ := drawPoints_cube n _ _ a hp ha hok
  refine ⟨pts, e, hn, fun pt hpt => ?_⟩
  have := hall pt hpt
  rwa [List.length_replicate] at this

/-- **C93 (the base of the generator).** The number `phi(dim)` is at least 1 in every dimension. -/
theorem C93_phi (recip : Bool) (pow : Dbl → Dbl → Dbl) (hpow : PowAboveOne pow) (dim : Nat) : AtLeastOne (qrngPhiD recip pow dim) := qrngPhiD_atLeastOne recip pow hpow dim

/-- **C93 (rounding errors of the generator).** The coordinate `i` of the point number `k` (from 0 on) differs from `seed + (k + 1) * alpha`, up to a whole number, by at most `(k + 1) * 2^-52`, where
`alpha` is the step size of the coordinate: a number between 0 and 1. -/
theorem C93_generator_error (phid : Dbl) (hphid : AtLeastOne phid) (dim : Nat) (seed : ℚ) (hs : IsDouble seed) (s0 : 0 ≤ seed) (s1 : seed ≤ 1) (n : Nat) (pts : List (List Dbl))
    (h : drawPoints n (qrngCtorD phid dim (.fin seed)) = some pts) (k i : Nat) (pt : List Dbl) (x : Dbl) (hk : pts[k]? = some pt) (hi : pt[i]? = some x) :
    ∃ (alpha : ℚ) (z : ℤ), (qrngCtorD phid dim (.fin seed)).alpha[i]? = some (.fin alpha) ∧ 0 ≤ alpha ∧ alpha ≤ 1 ∧ |Dbl.val x - (seed + (k + 1) * alpha - z)| ≤ (k + 1) * 2 ^ (-52 : ℤ) := by
  obtain ⟨a, ha, hp, hok⟩ := qrngCtorD_ok phid hphid dim seed hs.1 s0 (s1.trans (by norm_num))
  obtain ⟨z, hz⟩ := drawPoints_err n _ _ a hp ha hok (fun x hx => by rw [List.eq_of_mem_replicate hx]; exact s1) pts h k i pt x hk hi
  obtain ⟨pts', e', -, hall⟩ := drawPoints_cube n _ _ a hp ha hok
  rw [h, Option.some.injEq] at e'
  subst e'
  have hil : i < dim := by
    have h1 := (hall pt (List.mem_of_getElem? hk)).1
    rw [List.length_replicate] at h1
    have := (List.getElem?_eq_some_iff.1 hi).1
    omega
  have hal : i < a.length := by rw [← hok.len, List.length_replicate]; exact hil
  refine ⟨a[i], z, by rw [ha, List.getElem?_map, List.getElem?_eq_getElem hal]; rfl, (hok.alpha _ (List.getElem_mem hal)).2.1, (hok.alpha _ (List.getElem_mem hal)).2.2, ?_⟩
  have e1 : (List.replicate dim seed).getD i 0 = seed := by rw [List.getD_eq_getElem?_getD, List.getElem?_replicate, if_pos hil]; rfl
  have e2 : a.getD i 0 = a[i] := by rw [List.getD_eq_getElem?_getD, List.getElem?_eq_getElem hal]; rfl
  rw [e1, e2] at hz
  exact hz

/-- **C93 (rounding errors of the step sizes).** The step size of the coordinate `i` (from 0 on) differs from `1 / phid ^ (i + 1)` by at most `3 * i + 2` times the 2^-53rd part of it, for every
`phid` from 1 to 2 whose powers do not overflow. -/
theorem C93_step_sizes (phid : ℚ) (h1 : 1 ≤ phid) (h2 : phid ≤ 2) (dim : Nat) (seed : Dbl) (hmax : dim ≤ 2 ^ 50) (hpow : phid ^ (dim + 1) ≤ 2 ^ (1000 : ℤ)) (i : Nat) (hi : i < dim) :
    ∃ alpha : ℚ, (qrngCtorD (.fin phid) dim seed).alpha[i]? = some (.fin alpha) ∧ |alpha - 1 / phid ^ (i + 1)| ≤ (3 * i + 2) / 2 ^ 53 * (1 / phid ^ (i + 1)) := by
  obtain ⟨a, ha, hae⟩ := qrngAlphaD_err phid h1 h2 dim 0 phid phid (by omega) h1 (by rwa [← pow_succ']) (by simp) i hi
  refine ⟨a, ha, ?_⟩
  rw [← pow_succ'] at hae
  refine hae.trans (le_of_eq ?_)
  push_cast
  ring

example : ∃ alpha : ℚ, (qrngCtorD (.fin (3 / 2)) 3 (.fin (1 / 2))).alpha[2]? = some (.fin alpha) ∧ |alpha - 1 / (3 / 2) ^ (2 + 1)| ≤ (3 * ((2 : Nat) : ℚ) + 2) / 2 ^ 53 * (1 / (3 / 2) ^ (2 + 1)) :=
  C93_step_sizes (3 / 2) (by norm_num) (by norm_num) 3 _ (by norm_num) (le_trans (b := (2 : ℚ) ^ (3 : ℤ)) (by norm_num) (two_zpow_le (by norm_num))) 2 (by norm_num)

/-- **C93 (negation: every seed).** The constructor accepts every seed that is not negative, but the first call is undefined for a seed from `2^64` on: the conversion to an integer overflows. -/
theorem C93_generator_seed_violated (phid : Dbl) (hphid : AtLeastOne phid) (dim : Nat) (seed : ℚ) (hs : IsDouble seed) (s1 : 2 ^ 64 ≤ seed) : qrngNextD (qrngCtorD phid (dim + 1) (.fin seed)) = none := by
  obtain ⟨q, e, hq, q0, q1⟩ := div_one_between hphid
  have hstep : qrngStepD (.fin seed) (div (.fin 1) phid) = none := by
    rw [e]
    have h1 : seed ≤ roundQ (seed + q) := le_roundQ_of_binary53 (by linarith) hs.1
    unfold qrngStepD
    show (match roundD (seed + q) with | .fin s => _ | _ => none) = none
    unfold roundD
    split_ifs with h2 h3
    · rfl
    · rfl
    · show (if -1 < roundQ (seed + q) ∧ roundQ (seed + q) < 2 ^ 64 then _ else none) = none
      rw [if_neg]
      intro h
      exact absurd (lt_of_lt_of_le h.2 (s1.trans h1)) (lt_irrefl _)
  unfold qrngNextD
  show (qrngLoopD (.fin seed :: List.replicate dim (.fin seed)) (div (.fin 1) phid :: _)).bind _ = none
  rw [qrngLoopD, hstep]
  rfl

/-! ## The mappings to the simplex -/

/-- **C93 (`simplexMappingSort`).** A point of the unit cube is mapped to a point that is on the simplex up to rounding, all of whose coordinates are between 0 and 1. -/
theorem C93_map_sort (sort : List Dbl → List Dbl) (hsort : SortsDoubles sort) (point : List Dbl) (hn : point.length ≤ 2 ^ 40) (h : ∀ p ∈ point, DblBetween p 0 1) :
    ∃ r, simplexMappingSortD sort point = some r ∧ NearSimplex (point.length + 1) r ∧ ∀ x ∈ r, DblBetween x 0 1 :=
  simplexMappingSortD_spec sort hsort point hn h

/-- **C93 (rounding errors of `simplexMappingSort`).** The first coordinate of the result is the smallest coordinate of the point; the others are the differences of successive coordinates of the
sorted point followed by 1, up to `2^-52`. -/
theorem C93_map_sort_differences (sort : List Dbl → List Dbl) (hsort : SortsDoubles sort) (point r : List Dbl) (h : ∀ p ∈ point, DblBetween p 0 1) (hr : simplexMappingSortD sort point = some r) :
    r[0]? = (sort (point ++ [.fin 1]))[0]? ∧ ∀ (i : Nat) (a b : Dbl), (sort (point ++ [.fin 1]))[i]? = some a → (sort (point ++ [.fin 1]))[i + 1]? = some b →
      ∃ d : ℚ, r[i + 1]? = some (.fin d) ∧ |d - (Dbl.val b - Dbl.val a)| ≤ 2 ^ (-52 : ℤ) := by
  have hall : ∀ p ∈ point ++ [.fin 1], DblBetween p 0 1 := by
    intro p hp
    rcases List.mem_append.1 hp with hp | hp
    · exact h p hp
    · rw [List.mem_singleton.1 hp]
      exact ⟨1, rfl, isDouble_one', by norm_num, by norm_num⟩
  have hs := (hsort (point ++ [.fin 1]) (by intro x hx; obtain ⟨q, rfl, -⟩ := hall x hx; simp)).1
  have hin : ∀ x ∈ sort (point ++ [.fin 1]), DblBetween x 0 1 := fun x hx => hall x (hs.mem_iff.1 hx)
  unfold simplexMappingSortD at hr
  split at hr
  · rw [Option.some.injEq] at hr
    subst hr
    generalize sort (point ++ [.fin 1]) = s at *
    cases s with
    | nil => exact ⟨rfl, by simp⟩
    | cons x xs =>
      refine ⟨rfl, fun i a b ha hb => ?_⟩
      obtain ⟨qa, rfl, -, a0, a1⟩ := hin a (List.mem_of_getElem? ha)
      obtain ⟨qb, rfl, -, b0, b1⟩ := hin b (List.mem_of_getElem? hb)
      rw [List.getElem?_cons_succ] at hb
      have hab : |qb - qa| ≤ 1 := abs_le.2 ⟨by linarith, by linarith⟩
      refine ⟨roundQ (qb - qa), ?_, ?_⟩
      · show (List.zipWith sub xs (x :: xs))[i]? = _
        rw [List.getElem?_zipWith, hb, ha]
        show some (roundD (qb + -qa)) = _
        rw [← sub_eq_add_neg, roundD_small (k := 0) (by norm_num) (by norm_num) (by simpa using hab)]
      · have e := (roundQ_err (qb - qa)).1
        have e2 : |qb - qa| / 2 ^ 53 ≤ 1 / 2 ^ 53 := by gcongr
        have e3 : (2 : ℚ) ^ (-1075 : ℤ) ≤ 2 ^ (-53 : ℤ) := two_zpow_le (by norm_num)
        refine e.trans ((add_le_add e2 e3).trans ?_)
        norm_num
  · cases hr

/-- **C93 (`simplexMappingMirror`).** For every point of the unit cube, the loop of the mapping ends: the rounding errors cannot make the exchanges go on forever. The result is on the simplex up to
rounding. -/
theorem C93_map_mirror (point : List Dbl) (hn : point.length ≤ 2 ^ 40) (h : ∀ p ∈ point, DblBetween p 0 1) :
    ∃ r fuel, (∀ k, simplexMappingMirrorD (fuel + k) point = some r) ∧ NearSimplex (point.length + 1) r := by
  obtain ⟨⟨fuel, r, e⟩, hs⟩ := simplexMappingMirrorD_spec point hn h
  exact ⟨r, fuel, fun k => simplexMappingMirrorD_mono fuel k point r e, hs fuel r e⟩

/-- **C93 (points in order).** If the coordinates of the point are in order, the mirror mapping returns their differences: nothing is exchanged. -/
theorem C93_map_mirror_sorted (point : List Dbl) (h : ∀ p ∈ point, DblBetween p 0 1) (hsorted : point.Pairwise (fun a b => Dbl.le a b = true)) (k : Nat) :
    simplexMappingMirrorD (point.length + k) point = some (adjacentDifferenceD (point ++ [.fin 1])) := by
  have hcube : inUnitCubeD point := by
    intro p hp
    obtain ⟨q, rfl, -, a, b⟩ := h p hp
    exact ⟨decide_eq_true a, decide_eq_true b⟩
  unfold simplexMappingMirrorD
  rw [if_pos hcube]
  split_ifs with h1
  · have : point = [] := List.eq_nil_of_length_eq_zero (by omega)
    subst this
    rfl
  · have hord : ∀ (i j : Nat) (a b : Dbl), i < j → (point ++ [Dbl.fin 1])[i]? = some a → (point ++ [Dbl.fin 1])[j]? = some b → Dbl.lt b a = false := by
      have hp : (point ++ [Dbl.fin 1]).Pairwise (fun a b => Dbl.lt b a = false) := by
        rw [List.pairwise_append]
        refine ⟨hsorted.imp_of_mem ?_, List.pairwise_singleton _ _, ?_⟩
        · intro a b ha hb hab
          obtain ⟨qa, rfl, -⟩ := h a ha
          obtain ⟨qb, rfl, -⟩ := h b hb
          exact decide_eq_false (not_lt.2 (of_decide_eq_true hab))
        · intro a ha b hb
          rw [List.mem_singleton.1 hb]
          obtain ⟨qa, rfl, -, -, h2⟩ := h a ha
          exact decide_eq_false (not_lt.2 h2)
      intro i j a b hij ha hb
      obtain ⟨hi, rfl⟩ := List.getElem?_eq_some_iff.1 ha
      obtain ⟨hj, rfl⟩ := List.getElem?_eq_some_iff.1 hb
      exact List.pairwise_iff_getElem.1 hp i j hi hj hij
    have := mirrorLoopD_sorted _ hord (point.length - 1) k (by rw [List.length_append]; simp)
    rw [show point.length - 1 + 1 + k = point.length + k by omega] at this
    simp [this]

/-- **C93 (negation: the simplex, exactly).** The mapping by mirroring can have a negative coordinate: there are points of the unit cube with four coordinates for which the exchanges leave the
coordinates out of order by a rounding error. -/
theorem C93_map_mirror_violated : ∃ point : List Dbl, (∀ p ∈ point, DblBetween p 0 1) ∧ ∃ r, (∀ k, simplexMappingMirrorD (5 + k) point = some r) ∧ ∃ q : ℚ, .fin q ∈ r ∧ q < 0 := by
  refine ⟨[.fin (1 / 2 ^ 51), .fin (3 / 2 ^ 52), .fin (1 / 2 ^ 51), .fin (1 - 1 / 2 ^ 53)], ?_,
    [.fin (1 / 2 ^ 51), .fin (1 - 6 / 2 ^ 53), .fin (1 / 2 ^ 52), .fin (-(1 / 2 ^ 53)), .fin (1 / 2 ^ 53)],
    fun k => simplexMappingMirrorD_mono 5 k _ _ (by decide +kernel), -(1 / 2 ^ 53), by simp, by norm_num⟩
  have hd : ∀ (m e : ℤ), 0 ≤ m → m ≤ 2 ^ 53 → -1074 ≤ e → (m : ℚ) * 2 ^ e ≤ 1 → DblBetween (.fin ((m : ℚ) * 2 ^ e)) 0 1 := by
    intro m e h0 h1 he h2
    have h3 : (0 : ℚ) ≤ (m : ℚ) * 2 ^ e := by positivity
    exact ⟨_, rfl, ⟨⟨m, e, by rwa [abs_of_nonneg h0], he, rfl⟩, lt_two_pow_1024 (k := 0) (by norm_num) (by rw [abs_of_nonneg h3]; simpa using h2)⟩, h3, h2⟩
  intro p hp
  simp only [List.mem_cons, List.not_mem_nil, or_false] at hp
  rcases hp with rfl | rfl | rfl | rfl
  · have := hd 1 (-51) (by norm_num) (by norm_num) (by norm_num) (by norm_num); norm_num at this ⊢; exact this
  · have := hd 3 (-52) (by norm_num) (by norm_num) (by norm_num) (by norm_num); norm_num at this ⊢; exact this
  · have := hd 1 (-51) (by norm_num) (by norm_num) (by norm_num) (by norm_num); norm_num at this ⊢; exact this
  · have := hd (2 ^ 53 - 1) (-53) (by norm_num) (by norm_num) (by norm_num) (by norm_num); norm_num at this ⊢; exact this

/-! ## The generated points -/

/-- The seed of the generated points. -/
theorem default_seedD : IsDouble (1 / 2) ∧ (0 : ℚ) ≤ 1 / 2 ∧ (1 / 2 : ℚ) ≤ 2 ^ 63 :=
  ⟨⟨⟨1, -1, by norm_num, by norm_num, by norm_num⟩, lt_two_pow_1024 (k := 0) (by norm_num) (by rw [abs_of_nonneg] <;> norm_num)⟩, by norm_num, by norm_num⟩

/-- **C93 (`quasirandomSimplexPointsSort`).** The requested number of points, each of which is on the simplex up to rounding. -/
theorem C93_points_sort (sort : List Dbl → List Dbl) (hsort : SortsDoubles sort) (phid : Dbl) (hphid : AtLeastOne phid) (dim n : Nat) (hdim : 0 < dim) (hmax : dim ≤ 2 ^ 40) :
    ∃ pts, quasirandomSimplexPointsD (simplexMappingSortD sort) phid dim n = some pts ∧ pts.length = n ∧ ∀ r ∈ pts, NearSimplex dim r := by
  obtain ⟨a, ha, hp, hok⟩ := qrngCtorD_ok phid hphid (dim - 1) (1 / 2) default_seedD.1.1 default_seedD.2.1 default_seedD.2.2
  unfold quasirandomSimplexPointsD
  rw [if_neg (by omega)]
  refine simplexPointsLoopD_spec _ dim ?_ n _ _ a hp ha hok (by rw [List.length_replicate]; omega)
  intro p hl hx
  obtain ⟨r, e, hr, -⟩ := C93_map_sort sort hsort p (by omega) (fun x h => by obtain ⟨q, e, h1, h2, h3⟩ := hx x h; exact ⟨q, e, h1, h2, h3.le⟩)
  rw [hl] at hr
  exact ⟨r, e, hr⟩

/-- **C93 (`quasirandomSimplexPointsMirror`).** The default generator of NSGA-III ends, for every dimension and every number of points, and returns the requested number of points, each of which is
on the simplex up to rounding. -/
theorem C93_points_mirror (phid : Dbl) (hphid : AtLeastOne phid) (dim n : Nat) (hdim : 0 < dim) (hmax : dim ≤ 2 ^ 40) :
    ∃ pts fuel, (∀ k, quasirandomSimplexPointsD (simplexMappingMirrorD (fuel + k)) phid dim n = some pts) ∧ pts.length = n ∧ ∀ r ∈ pts, NearSimplex dim r := by
  obtain ⟨a, ha, hp, hok⟩ := qrngCtorD_ok phid hphid (dim - 1) (1 / 2) default_seedD.1.1 default_seedD.2.1 default_seedD.2.2
  have hl : (List.replicate (dim - 1) (1 / 2 : ℚ)).length + 1 = dim := by rw [List.length_replicate]; omega
  obtain ⟨fuel, pts, e, hn, hall⟩ := mirrorPoints_ends dim hmax n _ _ a hp ha hok hl
  refine ⟨pts, fuel, fun k => ?_, hn, hall⟩
  unfold quasirandomSimplexPointsD
  rw [if_neg (by omega)]
  exact simplexPointsLoopD_congr _ _ dim (fun p r h => simplexMappingMirrorD_mono fuel k p r h) n _ pts e

/-- **C93 (the points of the sequence).** The points on the simplex are the values of the mapping for the points of the quasi-random sequence with one coordinate less, the base `phid` and the
seed 0.5, in this order. -/
theorem C93_points_sequence (F : List Dbl → Option (List Dbl)) (phid : Dbl) (dim n : Nat) (pts : List (List Dbl)) (h : quasirandomSimplexPointsD F phid (dim + 1) n = some pts) :
    ∃ draws, drawPoints n (qrngCtorD phid dim (.fin (1 / 2))) = some draws ∧ List.Forall₂ (fun d p => F d = some p) draws pts := by
  unfold quasirandomSimplexPointsD at h
  rw [if_neg (by omega)] at h
  exact simplexPointsLoopD_sequence F _ n _ pts h

/-! ## The reference lines -/

theorem simplexError_small : (2 : ℚ) ^ (-52 : ℤ) ≤ 1 / 1000 := by norm_num

/-- **C93 (the reference lines of NSGA-III).** With the default generator, there are as many lines as were requested, each has one coordinate for each objective and the length 1, up to rounding: the sum
of the squares of its coordinates differs from 1 by at most `(dim + 2) * 2^-48`. The lines have the directions of the points of the generator, in the same order. They meet the conditions on the lines in the properties of the initialization and of the replacement (C86). -/
theorem C93_reference_lines (recip fused : Bool) (sqrt : Dbl → Dbl) (hsqrt : SqrtContract sqrt) (phid : Dbl) (hphid : AtLeastOne phid) (dim n : Nat) (hdim : 0 < dim) (hmax : dim ≤ 2 ^ 40) :
    ∃ pts lines fuel, (∀ k, quasirandomSimplexPointsD (simplexMappingMirrorD (fuel + k)) phid dim n = some pts) ∧
      (∀ k, generateReferencePointsD recip fused sqrt (quasirandomSimplexPointsD (simplexMappingMirrorD (fuel + k)) phid) dim n = some lines) ∧ lines.length = n ∧ IsMatrix dim lines ∧
      (∀ line ∈ lines, NearUnit dim line) ∧ (∀ line ∈ lines, ∀ l ∈ line, UnitEntry l) ∧ List.Forall₂ SameDirection pts lines := by
  obtain ⟨pts, fuel, e, hn, hall⟩ := C93_points_mirror phid hphid dim n hdim hmax
  have hrow : ∀ line ∈ pts.map (normalizeVectorD recip fused sqrt), NearUnit dim line ∧ ∀ l ∈ line, UnitEntry l := by
    intro line hline
    obtain ⟨p, hp, rfl⟩ := List.mem_map.1 hline
    exact ⟨(normalizeVectorD_spec recip fused sqrt hsqrt dim hmax p simplexError_small (hall p hp)).1, (normalizeVectorD_spec recip fused sqrt hsqrt dim hmax p simplexError_small (hall p hp)).2.1⟩
  refine ⟨pts, pts.map (normalizeVectorD recip fused sqrt), fuel, e, fun k => ?_, by rw [List.length_map, hn], fun line hl => (hrow line hl).1.length, fun line hl => (hrow line hl).1,
    fun line hl => (hrow line hl).2, ?_⟩
  swap
  · rw [List.forall₂_map_right_iff, List.forall₂_same]
    exact fun p hp => (normalizeVectorD_spec recip fused sqrt hsqrt dim hmax p simplexError_small (hall p hp)).2.2
  unfold generateReferencePointsD
  rw [e k]
  rfl

/-- **C93 (the initialization of NSGA-III).** With the lines of the default generator and fitness values that are not huge, the initialization is defined, and the state that it leaves meets the
conditions of the replacement: the properties of NSGA-III in binary64 arithmetic (C86) hold for the lines that the algorithm generates, in every generation. -/
theorem C93_initialize (fl : MultiFlags) (sqrt : Dbl → Dbl) (hsqrt : SqrtContract sqrt) (phid : Dbl) (hphid : AtLeastOne phid) (m n : Nat) (hm0 : 0 < m) (hmax : m ≤ 2 ^ 40) (hn : 0 < n)
    (nadir : List Dbl) (info : List (CandInfo Dbl)) (niche : List Nat) (fmat : List (List Dbl)) (hm : IsMatrix m fmat) (hf : fmat ≠ []) (hmod : ∀ r ∈ fmat, ∀ x ∈ r, Moderate x)
    (dom : Nat → Nat → Prop) (els : List (Nat × Nat)) (hels : IsNdSort dom fmat.length els) :
    ∃ lines fuel s, (∀ k, generateReferencePointsD fl.recip fl.fused sqrt (quasirandomSimplexPointsD (simplexMappingMirrorD (fuel + k)) phid) m n = some lines) ∧
      nsga3InitD fl lines nadir info niche fmat els = some s ∧ lines.length = n ∧ Nsga3Ok m s ∧ ModerateState s ∧
      ∀ (i : Nat) (row : List Dbl), fmat[i]? = some row → ∃ c, s.info[i]? = some c ∧ NearlyClosestLine m lines s.ideal s.nadir row c.refIdx := by
  obtain ⟨-, lines, fuel, -, e, hl, hmat, -, hunit, -⟩ := C93_reference_lines fl.recip fl.fused sqrt hsqrt phid hphid m n hm0 hmax
  have hne : lines ≠ [] := by intro h; rw [h] at hl; simp at hl; omega
  obtain ⟨s, h1, -, -, -, -, h2, h3, h4⟩ := C86_nsga3_first_points fl m hm0 (hmax.trans (by norm_num)) lines hmat hne hunit nadir info niche fmat hm hf hmod dom els hels
  exact ⟨lines, fuel, s, e, h1, hl, h2, h3, h4⟩

/-! ## Examples -/

/-- A power function that meets the requirement. -/
theorem example_pow : PowAboveOne (fun x _ => x) := fun _ _ h _ => h

/-- A sort that puts the NaNs last. -/
def sortD (l : List Dbl) : List Dbl := l.mergeSort (fun a b => Dbl.le a b || decide (b = Dbl.nan))

/-- It meets the requirement. -/
theorem sortD_contract : SortsDoubles sortD := by
  intro l hl
  refine ⟨List.mergeSort_perm l _, ?_⟩
  have hle : ∀ a b : Dbl, a ≠ .nan → b ≠ .nan → Dbl.le a b = true ∨ Dbl.le b a = true := by
    intro a b ha hb
    cases a <;> cases b <;> simp [Dbl.le] at * <;> exact le_total _ _
  have htr : ∀ a b c : Dbl, Dbl.le a b = true → Dbl.le b c = true → Dbl.le a c = true := by
    intro a b c h1 h2
    cases a <;> cases b <;> cases c <;> simp [Dbl.le] at * <;> exact h1.trans h2
  -- the order on the numbers that are not NaN
  have key := List.pairwise_mergeSort (le := fun a b => Dbl.le a b || decide (b = Dbl.nan)) (by
    intro a b c h1 h2
    simp only [Bool.or_eq_true, decide_eq_true_eq] at h1 h2 ⊢
    rcases h2 with h2 | h2
    · rcases h1 with h1 | rfl
      · exact Or.inl (htr a b c h1 h2)
      · cases c <;> simp [Dbl.le] at h2
    · exact Or.inr h2) (by
    intro a b
    simp only [Bool.or_eq_true, decide_eq_true_eq]
    by_cases ha : a = .nan
    · exact Or.inr (Or.inr ha)
    · by_cases hb : b = .nan
      · exact Or.inl (Or.inr hb)
      · rcases hle a b ha hb with h | h
        · exact Or.inl (Or.inl h)
        · exact Or.inr (Or.inl h)) l
  refine key.imp_of_mem ?_
  intro a b ha hb h
  have : b ≠ .nan := hl b ((List.mergeSort_perm l _).mem_iff.1 hb)
  simpa [this] using h

theorem atLeastOne_three_halves : AtLeastOne (.fin (3 / 2)) :=
  ⟨⟨⟨3, -1, by norm_num, by norm_num, by norm_num⟩, lt_two_pow_1024 (k := 1) (by norm_num) (by rw [abs_of_nonneg] <;> norm_num)⟩, by decide +kernel⟩

/-- Five points with three coordinates. -/
example : ∃ pts, drawPoints 5 (qrngCtorD (.fin (3 / 2)) 3 (.fin (1 / 2))) = some pts ∧ pts.length = 5 ∧ ∀ pt ∈ pts, pt.length = 3 ∧ ∀ x ∈ pt, InUnitInterval x :=
  C93_generator _ atLeastOne_three_halves 3 (1 / 2) default_seedD.1 default_seedD.2.1 default_seedD.2.2 5
example : ∃ pts, drawPoints 2 (qrngCtorD (.fin 2) 2 (.fin (1 / 2))) = some pts ∧ pts = [[.fin 0, .fin (3 / 4)], [.fin (1 / 2), .fin 0]] := ⟨_, by decide +kernel, rfl⟩
example : qrngNextD (qrngCtorD (.fin 2) 1 (.fin (2 ^ 64))) = none := by decide +kernel
example : AtLeastOne (qrngPhiD true (fun x _ => x) 7) := C93_phi true _ example_pow 7

/-- The mappings of a point with two coordinates. -/
example : simplexMappingMirrorD 2 [.fin (1 / 4), .fin (3 / 4)] = some (adjacentDifferenceD [.fin (1 / 4), .fin (3 / 4), .fin 1]) :=
  C93_map_mirror_sorted [.fin (1 / 4), .fin (3 / 4)] (by
    intro p hp
    simp only [List.mem_cons, List.not_mem_nil, or_false] at hp
    rcases hp with rfl | rfl
    · exact ⟨_, rfl, ⟨⟨1, -2, by norm_num, by norm_num, by norm_num⟩, lt_two_pow_1024 (k := 0) (by norm_num) (by rw [abs_of_nonneg] <;> norm_num)⟩, by norm_num, by norm_num⟩
    · exact ⟨_, rfl, ⟨⟨3, -2, by norm_num, by norm_num, by norm_num⟩, lt_two_pow_1024 (k := 0) (by norm_num) (by rw [abs_of_nonneg] <;> norm_num)⟩, by norm_num, by norm_num⟩) (by decide +kernel) 0
example : adjacentDifferenceD [.fin (1 / 4), .fin (3 / 4), .fin 1] = [.fin (1 / 4), .fin (1 / 2), .fin (1 / 4)] := by decide +kernel
example : ∃ r fuel, (∀ k, simplexMappingMirrorD (fuel + k) [.fin (3 / 4), .fin (1 / 4)] = some r) ∧ NearSimplex 3 r :=
  C93_map_mirror [.fin (3 / 4), .fin (1 / 4)] (by norm_num) (by
    intro p hp
    simp only [List.mem_cons, List.not_mem_nil, or_false] at hp
    rcases hp with rfl | rfl
    · exact ⟨_, rfl, ⟨⟨3, -2, by norm_num, by norm_num, by norm_num⟩, lt_two_pow_1024 (k := 0) (by norm_num) (by rw [abs_of_nonneg] <;> norm_num)⟩, by norm_num, by norm_num⟩
    · exact ⟨_, rfl, ⟨⟨1, -2, by norm_num, by norm_num, by norm_num⟩, lt_two_pow_1024 (k := 0) (by norm_num) (by rw [abs_of_nonneg] <;> norm_num)⟩, by norm_num, by norm_num⟩)
example : simplexMappingMirrorD 4 [.fin (3 / 4), .fin (1 / 4)] = some [.fin (1 / 4), .fin (1 / 2), .fin (1 / 4)] := by decide +kernel
example : ∃ r, simplexMappingSortD sortD [.fin 1, .fin 0] = some r ∧ NearSimplex 3 r ∧ ∀ x ∈ r, DblBetween x 0 1 :=
  C93_map_sort sortD sortD_contract [.fin 1, .fin 0] (by norm_num) (by
    intro p hp
    simp only [List.mem_cons, List.not_mem_nil, or_false] at hp
    rcases hp with rfl | rfl
    · exact ⟨1, rfl, isDouble_one', by norm_num, by norm_num⟩
    · exact ⟨0, rfl, ⟨isBinary53_zero, by rw [abs_zero]; positivity⟩, by norm_num, by norm_num⟩)
example : adjacentDifferenceD [.fin (1 / 8), .fin (3 / 4), .fin 1] = [.fin (1 / 8), .fin (5 / 8), .fin (1 / 4)] := by decide +kernel

/-- Ten lines for three objectives, and the initialization with them. -/
example : ∃ pts fuel, (∀ k, quasirandomSimplexPointsD (simplexMappingMirrorD (fuel + k)) (.fin (3 / 2)) 3 10 = some pts) ∧ pts.length = 10 ∧ ∀ r ∈ pts, NearSimplex 3 r :=
  C93_points_mirror _ atLeastOne_three_halves 3 10 (by norm_num) (by norm_num)
example : ∃ pts, quasirandomSimplexPointsD (simplexMappingSortD sortD) (.fin (3 / 2)) 3 10 = some pts ∧ pts.length = 10 ∧ ∀ r ∈ pts, NearSimplex 3 r :=
  C93_points_sort _ sortD_contract _ atLeastOne_three_halves 3 10 (by norm_num) (by norm_num)
example : ∃ lines fuel s, (∀ k, generateReferencePointsD true true refSqrt (quasirandomSimplexPointsD (simplexMappingMirrorD (fuel + k)) (.fin (3 / 2))) 2 10 = some lines) ∧
    nsga3InitD ⟨true, true, addInOrder⟩ lines [] [] [] smallPool smallPoolEls = some s ∧ lines.length = 10 ∧ Nsga3Ok 2 s ∧ ModerateState s := by
  obtain ⟨lines, fuel, s, h1, h2, h3, h4, h5, -⟩ := C93_initialize ⟨true, true, addInOrder⟩ refSqrt refSqrt_contract _ atLeastOne_three_halves 2 10 (by norm_num) (by norm_num) (by norm_num) [] [] []
    smallPool (by unfold IsMatrix; decide +kernel) (by simp [smallPool]) smallPool_moderate _ smallPoolEls smallPool_sorted
  exact ⟨lines, fuel, s, h1, h2, h3, h4, h5⟩

end Gapp.Props
