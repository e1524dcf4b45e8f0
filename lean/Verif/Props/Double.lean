import Verif.Proofs.DoubleOps
import Verif.Props.Rng
/-!
# C36 and C61: random numbers and real-coded operators in binary64 arithmetic
-/

namespace Gapp.Props
open Gapp.Model Gapp.Spec

theorem isDouble_int {n : ℤ} (h : |n| ≤ 2 ^ 53) : IsDouble n := by
  refine ⟨⟨n, 0, h, by norm_num, by rw [zpow_zero, mul_one]⟩, ?_⟩
  have h1 : |(n : ℚ)| ≤ 2 ^ (53 : ℤ) := by exact_mod_cast h
  exact lt_two_pow_1024 (by norm_num) h1

/-! ## Rounding

`roundD` is the rounding of IEEE 754: the nearest number, or an infinity. -/

/-- The result of an operation is the binary64 number nearest to the exact result, if that is not too large. -/
theorem C61_rounding (x : ℚ) (hx : |x| < 2 ^ 1024 - 2 ^ 970) :
    ∃ r, roundD x = .fin r ∧ IsDouble r ∧ ∀ y, IsDouble y → |r - x| ≤ |y - x| := by
  have hmax : IsBinary53 ((2 : ℚ) ^ 1024 - 2 ^ 971) := by
    refine ⟨2 ^ 53 - 1, 971, by norm_num, by norm_num, ?_⟩
    have h : (2 : ℚ) ^ 1024 = 2 ^ 53 * 2 ^ 971 := by rw [← pow_add]
    have h' : (2 : ℚ) ^ (971 : ℤ) = 2 ^ 971 := zpow_natCast 2 971
    rw [h, h']
    push_cast
    ring
  have hle : |roundQ x| < 2 ^ 1024 := by
    by_contra hge
    rw [not_lt] at hge
    have h971 : (2 : ℚ) ^ 971 = 2 ^ 970 * 2 := pow_succ 2 970
    have e1 : (2 : ℚ) ^ 1024 - 2 ^ 970 = 2 ^ 1024 - 2 ^ 971 + 2 ^ 970 := by
      rw [h971]
      generalize (2 : ℚ) ^ 970 = c
      ring
    have h970 : (0 : ℚ) < 2 ^ 970 := by positivity
    rcases le_abs'.1 hge with h | h
    · have := roundQ_nearest x (isBinary53_neg hmax)
      have hx' := abs_lt.1 hx
      generalize (2 : ℚ) ^ 1024 = a at *
      generalize (2 : ℚ) ^ 971 = b at *
      generalize (2 : ℚ) ^ 970 = c at *
      rw [abs_of_nonpos (by linarith)] at this
      rcases abs_cases (-(a - b) - x) with g | g <;> linarith
    · have := roundQ_nearest x hmax
      have hx' := abs_lt.1 hx
      generalize (2 : ℚ) ^ 1024 = a at *
      generalize (2 : ℚ) ^ 971 = b at *
      generalize (2 : ℚ) ^ 970 = c at *
      rw [abs_of_nonneg (by linarith)] at this
      rcases abs_cases (a - b - x) with g | g <;> linarith
  exact ⟨roundQ x, roundD_fin (abs_lt.1 hle).2 (abs_lt.1 hle).1, ⟨roundQ_binary53 x, hle⟩, fun y hy => roundQ_nearest x hy.1⟩

example : roundD (1 / 10) = .fin (3602879701896397 / 36028797018963968) := by decide +kernel
example : roundD (2 ^ 53 + 1) = .fin (2 ^ 53) := by decide +kernel
example : roundD (2 ^ 1024 - 2 ^ 970) = .pinf := by decide +kernel

/-! ## `randomReal(l, u)` -/

/-- C36: `randomReal(l, u)` is a number in `[l, u]` in binary64 arithmetic, with or without fused operations, if `u - l` does not overflow. -/
theorem C36_double_range_partial (fused : Bool) (lo hi : ℚ) (hlo : IsDouble lo) (hhi : IsDouble hi) (hle : lo ≤ hi)
    (hfin : Dbl.isFinite (Dbl.sub (.fin hi) (.fin lo)) = true) (x : BitVec 64) :
    ∃ k r, randomReal 64 53 x = some k ∧ randomRealD fused (.fin lo) (.fin hi) k = some r ∧ DblBetween r lo hi := by
  obtain ⟨k, h1, h2⟩ := C36_random_real_double_partial x
  obtain ⟨r, h3, h4⟩ := randomRealD_spec fused hlo hhi hle hfin h2
  exact ⟨k, r, h1, h3, h4⟩

example : randomRealD false (.fin (-1)) (.fin 3) (2 ^ 52) = some (.fin 1) := by decide +kernel
example : IsDouble (-1) := by simpa using isDouble_int (n := -1) (by norm_num)
example : Dbl.isFinite (Dbl.sub (.fin 3) (.fin (-1))) = true := by decide +kernel

/-- C36: the documentation says that the interval is half-open, but the upper bound can be returned because of rounding. -/
theorem C36_double_upper_bound : randomRealD false (.fin 1) (.fin (1 + 1 / 2 ^ 52)) (2 ^ 53 - 1) = some (.fin (1 + 1 / 2 ^ 52)) := by decide +kernel

/-- C36: if `u - l` overflows then the result is not in `[l, u]`: it is an infinity, or a NaN. -/
theorem C36_double_overflow :
    randomRealD false (.fin (-(2 ^ 1024 - 2 ^ 971))) (.fin (2 ^ 1024 - 2 ^ 971)) (2 ^ 52) = some .pinf ∧
    randomRealD false (.fin (-(2 ^ 1024 - 2 ^ 971))) (.fin (2 ^ 1024 - 2 ^ 971)) 0 = some .nan := by decide +kernel

/-! ## Candidates -/

theorem sane_sub_finite {b : GeneBounds Dbl} (hb : SaneBounds 1022 b) : Dbl.isFinite (Dbl.sub b.upper b.lower) = true := by
  obtain ⟨lo, hi, rfl, hlo, hhi, hle, h1, h2⟩ := hb
  obtain ⟨x, h, _⟩ := bnd_sub (m := 1023) (by norm_num) (by norm_num) (by norm_num) ⟨hi, rfl, hhi, h2⟩ ⟨lo, rfl, hlo, h1⟩
  show Dbl.isFinite (Dbl.sub (.fin hi) (.fin lo)) = true
  rw [h]; rfl

/-- `randomReal` over the bounds of a gene. -/
theorem randomReal_within (fused : Bool) {b : GeneBounds Dbl} (hb : SaneBounds 1022 b) {k : ℕ} (hk : k < 2 ^ 53) :
    ∃ g, randomRealD fused b.lower b.upper k = some g ∧ GeneWithin b g := by
  have hf := sane_sub_finite hb
  obtain ⟨lo, hi, rfl, hlo, hhi, hle, h1, h2⟩ := hb
  obtain ⟨r, h3, h4⟩ := randomRealD_spec fused hlo hhi hle hf hk
  exact ⟨r, h3, lo, hi, rfl, h4⟩

/-- C61: every gene of a random candidate is a number within its bounds. -/
theorem C61_generate_partial (fused : Bool) (bounds : List (GeneBounds Dbl)) (hb : ∀ b ∈ bounds, SaneBounds 1022 b) (draws : Nat → ℕ) (hd : ∀ i, draws i < 2 ^ 53) :
    ∃ c, generateRealD fused bounds.length bounds draws = some c ∧ LegalDoubles bounds c := by
  unfold generateRealD
  rw [if_pos rfl]
  have key : ∀ (bs : List (GeneBounds Dbl)) (n : Nat), (∀ b ∈ bs, SaneBounds 1022 b) → (∀ (j : Nat) b, bs[j]? = some b → bounds[n + j]? = some b) →
      ∃ c, (List.range' n bs.length).mapM (fun i => do
        let b ← bounds[i]?
        randomRealD fused b.lower b.upper (draws i)) = some c ∧ LegalDoubles bs c := by
    intro bs
    induction bs with
    | nil => intro n _ _; exact ⟨[], rfl, rfl, fun i b g h => by simp at h⟩
    | cons b bs ih =>
      intro n hs hidx
      obtain ⟨g, hg, hw⟩ := randomReal_within fused (hs b (List.mem_cons_self ..)) (hd n)
      obtain ⟨c, hc, hl⟩ := ih (n + 1) (fun b' hb' => hs b' (List.mem_cons_of_mem _ hb')) (fun j b' h => by
        rw [show n + 1 + j = n + (j + 1) by omega]; exact hidx (j + 1) b' (by simpa using h))
      have hn : bounds[n]? = some b := hidx 0 b rfl
      refine ⟨g :: c, ?_, by simp [hl.1], ?_⟩
      · rw [List.length_cons, List.range'_succ, List.mapM_cons]
        simp only [Option.bind_eq_bind] at hc
        simp only [hn, hg, hc, Option.bind_eq_bind, Option.bind_some, Option.pure_def]
      · intro j b' g' hb' hg'
        match j with
        | 0 => simp at hb' hg'; subst hb'; subst hg'; exact hw
        | j + 1 => exact hl.2 j b' g' (by simpa using hb') (by simpa using hg')
  have := key bounds 0 hb (fun j b h => by rwa [Nat.zero_add])
  rwa [List.range_eq_range']

example : generateRealD false 2 [⟨.fin 0, .fin 8⟩, ⟨.fin (-1), .fin 1⟩] (fun i => i * 2 ^ 51) = some [.fin 0, .fin (-1 / 2)] := by decide +kernel
example : SaneBounds 1022 ⟨.fin (-1), .fin 1⟩ := by
  refine ⟨-1, 1, rfl, by simpa using isDouble_int (n := -1) (by norm_num), by simpa using isDouble_int (n := 1) (by norm_num), by norm_num, ?_, ?_⟩
  · rw [abs_neg, abs_one]; exact one_le_zpow₀ (by norm_num) (by norm_num)
  · rw [abs_one]; exact one_le_zpow₀ (by norm_num) (by norm_num)

/-- C61: with bounds from the lowest to the largest number, a random gene can be infinite. -/
theorem C61_generate_overflow :
    generateRealD false 1 [⟨.fin (-(2 ^ 1024 - 2 ^ 971)), .fin (2 ^ 1024 - 2 ^ 971)⟩] (fun _ => 2 ^ 52) = some [.pinf] := by decide +kernel

/-! ## Crossovers -/

theorem bnd_one : Bnd 0 (.fin 1) := ⟨1, rfl, by simpa using isDouble_int (n := 1) (by norm_num), by norm_num⟩

/-- `1 - alpha`. -/
theorem bnd_one_sub {k : ℕ} (hk : k < 2 ^ 53) : Bnd 0 (Dbl.sub (.fin 1) (unitReal k)) := by
  unfold unitReal
  rw [sub_eq_roundD]
  apply bnd_roundD (by norm_num) (by norm_num)
  have : (k : ℚ) / 2 ^ 53 ≤ 1 := by rw [div_le_one (by positivity)]; exact_mod_cast hk.le
  have : (0 : ℚ) ≤ (k : ℚ) / 2 ^ 53 := by positivity
  rw [zpow_zero, abs_le]
  constructor <;> linarith

theorem mulAddMul_bnd (fused : Option Bool) {a x b y : Dbl} (ha : Bnd 0 a) (hx : Bnd 1022 x) (hb : Bnd 0 b) (hy : Bnd 1022 y) : Bnd 1023 (mulAddMul fused a x b y) := by
  have h1 : Bnd 1022 (Dbl.mul a x) := bnd_mul (by norm_num) (by norm_num) (by norm_num) ha hx
  have h2 : Bnd 1022 (Dbl.mul b y) := bnd_mul (by norm_num) (by norm_num) (by norm_num) hb hy
  match fused with
  | none => exact bnd_add (by norm_num) (by norm_num) (by norm_num) h1 h2
  | some true => exact bnd_mulAdd true (by norm_num) (by norm_num) (by norm_num) (by norm_num) ha hx h2
  | some false => exact bnd_mulAdd true (by norm_num) (by norm_num) (by norm_num) (by norm_num) hb hy h1

theorem mulAddMul_isDbl (fused : Option Bool) (a x b y : Dbl) : IsDbl (mulAddMul fused a x b y) := by
  match fused with
  | none => exact isDbl_add _ _
  | some true => exact isDbl_mulAdd _ _ _ _
  | some false => exact isDbl_mulAdd _ _ _ _

/-- C61: the children of the arithmetic crossover are within the bounds. -/
theorem C61_arithmetic_partial (fused : Option Bool) (k : ℕ) (hk : k < 2 ^ 53) (bounds : List (GeneBounds Dbl)) (hb : ∀ b ∈ bounds, SaneBounds 1022 b)
    (p1 p2 : List Dbl) (hp1 : LegalDoubles bounds p1) (hp2 : LegalDoubles bounds p2) :
    ∃ c1 c2, arithmeticCrossoverD fused k bounds p1 p2 = some (c1, c2) ∧ LegalDoubles bounds c1 ∧ LegalDoubles bounds c2 := by
  refine geneLoopD_ok _ bounds 0 p1 p2 hp1 hp2 ?_
  intro i b x y hmem hx hy
  have hx' : Bnd 1022 x := within_bnd (hb b hmem) hx
  have hy' : Bnd 1022 y := within_bnd (hb b hmem) hy
  exact ⟨_, _, rfl, clamp_within (hb b hmem) (bnd_ne_nan (mulAddMul_bnd fused (unitReal_bnd hk) hx' (bnd_one_sub hk) hy')) (mulAddMul_isDbl ..),
    clamp_within (hb b hmem) (bnd_ne_nan (mulAddMul_bnd fused (bnd_one_sub hk) hx' (unitReal_bnd hk) hy')) (mulAddMul_isDbl ..)⟩

/-- C61: the children of Wright's crossover are within the bounds. -/
theorem C61_wright_partial (fused less : Bool) (k1 k2 : ℕ) (hk1 : k1 < 2 ^ 53) (hk2 : k2 < 2 ^ 53) (bounds : List (GeneBounds Dbl)) (hb : ∀ b ∈ bounds, SaneBounds 1022 b)
    (p1 p2 : List Dbl) (hp1 : LegalDoubles bounds p1) (hp2 : LegalDoubles bounds p2) :
    ∃ c1 c2, wrightCrossoverD fused less k1 k2 bounds p1 p2 = some (c1, c2) ∧ LegalDoubles bounds c1 ∧ LegalDoubles bounds c2 := by
  have gene : ∀ (b : GeneBounds Dbl) (x y : Dbl) (k : ℕ), k < 2 ^ 53 → b ∈ bounds → GeneWithin b x → GeneWithin b y →
      GeneWithin b (Dbl.clamp (Dbl.mulAdd fused (unitReal k) (Dbl.sub x y) x) b.lower b.upper) := by
    intro b x y k hk hmem hx hy
    have hx' := within_bnd (hb b hmem) hx
    have hy' : Bnd 1022 y := within_bnd (hb b hmem) hy
    have hs : Bnd 1023 (Dbl.sub x y) := bnd_sub (by norm_num) (by norm_num) (by norm_num) hx' hy'
    have hm : Bnd 1023 (Dbl.mul (unitReal k) (Dbl.sub x y)) := bnd_mul (by norm_num) (by norm_num) (by norm_num) (unitReal_bnd hk) hs
    obtain ⟨q, rfl, _⟩ := hx'
    exact clamp_within (hb b hmem) (mulAdd_ne_nan fused (bnd_ne_nan hm)) (isDbl_mulAdd ..)
  unfold wrightCrossoverD
  have h1 : LegalDoubles bounds (if less then p2 else p1) := by split <;> assumption
  have h2 : LegalDoubles bounds (if less then p1 else p2) := by split <;> assumption
  refine geneLoopD_ok _ bounds 0 _ _ h1 h2 ?_
  intro i b x y hmem hx hy
  exact ⟨_, _, rfl, gene b x y k1 hk1 hmem hx hy, gene b x y k2 hk2 hmem hx hy⟩

/-- C61: with bounds from the lowest to the largest number, a gene of a child of Wright's crossover can be a NaN. -/
theorem C61_wright_nan :
    wrightCrossoverD false false 0 1 [⟨.fin (-(2 ^ 1024 - 2 ^ 971)), .fin (2 ^ 1024 - 2 ^ 971)⟩] [.fin (-(2 ^ 1024 - 2 ^ 971))] [.fin (2 ^ 1024 - 2 ^ 971)] =
      some ([.nan], [.fin (-(2 ^ 1024 - 2 ^ 971))]) := by decide +kernel

example : wrightCrossoverD false true (2 ^ 52) (2 ^ 51) [⟨.fin 0, .fin 8⟩, ⟨.fin (-1), .fin 1⟩] [.fin 4, .fin 0] [.fin 6, .fin (1 / 2)] =
    some ([.fin 7, .fin (3 / 4)], [.fin (13 / 2), .fin (5 / 8)]) := by decide +kernel
example : arithmeticCrossoverD none (2 ^ 51) [⟨.fin 0, .fin 8⟩, ⟨.fin (-1), .fin 1⟩] [.fin 4, .fin 0] [.fin 8, .fin 1] =
    some ([.fin 7, .fin (3 / 4)], [.fin 5, .fin (1 / 4)]) := by decide +kernel

/-- C61: the children of the BLX-α crossover are within the bounds, if `alpha` times the size of the bounds does not come near the largest number. -/
theorem C61_blx_partial (fused : Bool) (alpha : ℚ) (ka kb : ℤ) (ha : IsDouble alpha) (ha0 : 0 ≤ alpha) (hak : alpha ≤ 2 ^ ka) (hka : 0 ≤ ka) (hkb : 0 ≤ kb) (hk : ka + kb ≤ 1019)
    (draws : Nat → ℕ × ℕ) (hd : ∀ i, (draws i).1 < 2 ^ 53 ∧ (draws i).2 < 2 ^ 53)
    (bounds : List (GeneBounds Dbl)) (hb : ∀ b ∈ bounds, SaneBounds kb b) (p1 p2 : List Dbl) (hp1 : LegalDoubles bounds p1) (hp2 : LegalDoubles bounds p2) :
    ∃ c1 c2, blxCrossoverD fused (.fin alpha) draws bounds p1 p2 = some (c1, c2) ∧ LegalDoubles bounds c1 ∧ LegalDoubles bounds c2 := by
  refine geneLoopD_ok _ bounds 0 p1 p2 hp1 hp2 ?_
  intro i b x y hmem hx hy
  obtain ⟨x, rfl, hxd, hxk⟩ := within_bnd (hb b hmem) hx
  obtain ⟨y, rfl, hyd, hyk⟩ := within_bnd (hb b hmem) hy
  have hmin : IsDouble (min x y) := by rcases min_choice x y with h | h <;> rw [h] <;> assumption
  have hmax : IsDouble (max x y) := by rcases max_choice x y with h | h <;> rw [h] <;> assumption
  have hmink : |min x y| ≤ 2 ^ kb := by rcases min_choice x y with h | h <;> rw [h] <;> assumption
  have hmaxk : |max x y| ≤ 2 ^ kb := by rcases max_choice x y with h | h <;> rw [h] <;> assumption
  have hA : Bnd ka (.fin alpha) := ⟨alpha, rfl, ha, by rwa [abs_of_nonneg ha0]⟩
  have hMin : Bnd kb (.fin (min x y)) := ⟨_, rfl, hmin, hmink⟩
  have hMax : Bnd kb (.fin (max x y)) := ⟨_, rfl, hmax, hmaxk⟩
  have hspan : Bnd (kb + 1) (Dbl.sub (.fin (max x y)) (.fin (min x y))) := bnd_sub (by omega) (by omega) le_rfl hMax hMin
  obtain ⟨s, hs, _, _⟩ := hspan
  have hs0 : 0 ≤ s := by
    rw [sub_eq_roundD] at hs
    rw [(roundD_fin_iff.1 hs).1]
    exact roundQ_nonneg (by linarith [min_le_max (a := x) (b := y)])
  have hspan : Bnd (kb + 1) (.fin s) := by rw [← hs]; exact bnd_sub (by omega) (by omega) le_rfl hMax hMin
  obtain ⟨lo, hlo, hlod, hlok⟩ : Bnd (ka + kb + 2) (Dbl.mulAdd fused (.neg (.fin alpha)) (.fin s) (.fin (min x y))) :=
    bnd_mulAdd fused (l := ka + kb + 1) (by omega) (by omega) (by omega) (by omega) (bnd_neg hA) hspan (bnd_mono (by omega) hMin)
  obtain ⟨hi, hhi, hhid, hhik⟩ : Bnd (ka + kb + 2) (Dbl.mulAdd fused (.fin alpha) (.fin s) (.fin (max x y))) :=
    bnd_mulAdd fused (l := ka + kb + 1) (by omega) (by omega) (by omega) (by omega) hA hspan (bnd_mono (by omega) hMax)
  have h1 : lo ≤ min x y := mulAdd_le fused (x := -alpha) hmin (by nlinarith) hlo
  have h2 : max x y ≤ hi := le_mulAdd fused hmax (by positivity) hhi
  have hle : lo ≤ hi := by linarith [min_le_max (a := x) (b := y)]
  have hfin : Dbl.isFinite (Dbl.sub (.fin hi) (.fin lo)) = true := by
    obtain ⟨q, hq, _⟩ : Bnd (ka + kb + 3) (Dbl.sub (.fin hi) (.fin lo)) :=
      bnd_sub (k := ka + kb + 2) (by omega) (by omega) (by omega) ⟨hi, rfl, hhid, hhik⟩ ⟨lo, rfl, hlod, hlok⟩
    rw [hq]; rfl
  obtain ⟨r1, e1, q1, rfl, hq1, _⟩ := randomRealD_spec fused hlod hhid hle hfin (hd i).1
  obtain ⟨r2, e2, q2, rfl, hq2, _⟩ := randomRealD_spec fused hlod hhid hle hfin (hd i).2
  refine ⟨_, _, ?_, clamp_within (hb b hmem) (v := .fin q1) (by intro h; cases h) hq1, clamp_within (hb b hmem) (v := .fin q2) (by intro h; cases h) hq2⟩
  simp only [(minmax_fin x y).1, (minmax_fin x y).2, hs, hlo, hhi, e1, e2, Option.bind_eq_bind, Option.bind_some, Option.pure_def]

example : blxCrossoverD false (.fin (1 / 2)) (fun _ => (2 ^ 52, 0)) [⟨.fin 0, .fin 8⟩, ⟨.fin (-1), .fin 1⟩] [.fin 4, .fin 0] [.fin 8, .fin 1] =
    some ([.fin 6, .fin (1 / 2)], [.fin 2, .fin (-1 / 2)]) := by decide +kernel

theorem inv_bounds {s : ℚ} (h1 : 2 ^ (-1022 : ℤ) ≤ s) (h2 : s ≤ 2 ^ (1023 : ℤ)) : ∃ r, Dbl.div (.fin 1) (.fin s) = .fin r ∧ 0 < r := by
  have hs0 : 0 < s := lt_of_lt_of_le (two_zpow_pos _) h1
  have hu : |1 / s| ≤ 2 ^ (1022 : ℤ) := by
    rw [abs_of_pos (by positivity), div_le_iff₀ hs0]
    calc (1 : ℚ) = 2 ^ (1022 : ℤ) * 2 ^ (-1022 : ℤ) := by rw [← two_zpow_add]; norm_num
      _ ≤ _ := by gcongr
  have hl : (2 : ℚ) ^ (-1023 : ℤ) ≤ 1 / s := by
    rw [le_div_iff₀ hs0]
    calc (2 : ℚ) ^ (-1023 : ℤ) * s ≤ 2 ^ (-1023 : ℤ) * 2 ^ (1023 : ℤ) := by gcongr
      _ = 1 := by rw [← two_zpow_add]; norm_num
  obtain ⟨r, hr, _⟩ := bnd_roundD (by norm_num) (by norm_num) hu
  refine ⟨r, ?_, ?_⟩
  · show (if s = 0 then Dbl.nan else roundD (1 / s)) = _
    rw [if_neg hs0.ne', hr]
  · rw [(roundD_fin_iff.1 hr).1]
    exact lt_of_lt_of_le (two_zpow_pos _) (le_roundQ_of_binary53 hl (isBinary53_zpow (by norm_num)))

/-- A quotient of a number that is not negative and a positive number is not negative, if the reciprocal does not overflow. -/
theorem divR_nonneg (recip : Bool) {a : Dbl} (ha : Dbl.le (.fin 0) a = true) {s : ℚ} (hs0 : 0 < s) (hr : recip = true → 2 ^ (-1022 : ℤ) ≤ s ∧ s ≤ 2 ^ (1023 : ℤ)) :
    Dbl.le (.fin 0) (divR recip a (.fin s)) = true := by
  cases recip with
  | false =>
    show Dbl.le (.fin 0) (Dbl.div a (.fin s)) = true
    rcases nonneg_cases ha with h | ⟨q, h, hq⟩
    · rw [h]
      show Dbl.le (.fin 0) (Dbl.scaledInf s) = true
      rw [Dbl.scaledInf, if_pos hs0]; rfl
    · rw [h]
      show Dbl.le (.fin 0) (if s = 0 then .nan else roundD (q / s)) = true
      rw [if_neg hs0.ne']
      exact le_zero_roundD (by positivity)
  | true =>
    show Dbl.le (.fin 0) (Dbl.mul a (Dbl.div (.fin 1) (.fin s))) = true
    obtain ⟨r, e, hr0⟩ := inv_bounds (hr rfl).1 (hr rfl).2
    rw [e]
    rcases nonneg_cases ha with h | ⟨q, h, hq⟩
    · rw [h]
      show Dbl.le (.fin 0) (Dbl.scaledInf r) = true
      rw [Dbl.scaledInf, if_pos hr0]; rfl
    · rw [h]
      exact le_zero_roundD (by positivity)

/-- A quotient of numbers in order is in `[0, 1]`, also as a product with the reciprocal: the error of the reciprocal is too small to get to the next number above 1. -/
theorem divR_unit (recip : Bool) {m x : ℚ} (hm : 1 ≤ m) (hm2 : m ≤ 2 ^ (64 : ℤ)) (hx0 : 0 ≤ x) (hx : x ≤ m) : ∃ r, divR recip (.fin x) (.fin m) = .fin r ∧ 0 ≤ r ∧ r ≤ 1 := by
  have one53 : IsBinary53 1 := by simpa using isBinary53_zpow (k := 0) (by norm_num)
  have hm0 : 0 < m := by linarith
  have key : ∀ y : ℚ, 0 ≤ y → roundQ y ≤ 1 → ∃ r, roundD y = .fin r ∧ 0 ≤ r ∧ r ≤ 1 := fun y h0 h1 =>
    ⟨roundQ y, roundD_fin (lt_two_pow_1024 (k := 0) (by norm_num) (by simpa using h1)) (lt_of_lt_of_le (by rw [neg_lt_zero]; positivity) (roundQ_nonneg h0)), roundQ_nonneg h0, h1⟩
  cases recip with
  | false =>
    obtain ⟨r, e, h⟩ := key (x / m) (by positivity) (roundQ_le_of_binary53 ((div_le_one hm0).2 hx) one53)
    refine ⟨r, ?_, h⟩
    show (if m = 0 then Dbl.nan else roundD (x / m)) = _
    rw [if_neg hm0.ne', e]
  | true =>
    have hl : (2 : ℚ) ^ (-64 : ℤ) ≤ 1 / m := by
      rw [le_div_iff₀ hm0]
      calc (2 : ℚ) ^ (-64 : ℤ) * m ≤ 2 ^ (-64 : ℤ) * 2 ^ (64 : ℤ) := by gcongr
        _ = 1 := by norm_num
    have h1 : |1 / m| ≤ 2 ^ (0 : ℤ) := by
      rw [zpow_zero, abs_of_pos (by positivity), div_le_one hm0]; exact hm
    obtain ⟨R, hR, -, -⟩ := bnd_roundD (by norm_num) (by norm_num) h1
    have hR' := (roundD_fin_iff.1 hR).1
    have hR0 : 0 ≤ R := by rw [hR']; exact roundQ_nonneg (by positivity)
    have herr : R ≤ 1 / m * (1 + 1 / 2 ^ 53) := by
      have := roundQ_rel_up hl
      rw [hR']; exact this
    have hprod : x * R ≤ 1 + 1 / 2 ^ 53 := by
      calc x * R ≤ m * (1 / m * (1 + 1 / 2 ^ 53)) := by gcongr
        _ = 1 + 1 / 2 ^ 53 := by field_simp
    have htie : roundQ (1 + 1 / 2 ^ 53) = 1 := by decide +kernel
    obtain ⟨r, e, h⟩ := key (x * R) (by positivity) (by rw [← htie]; exact roundQ_mono hprod)
    refine ⟨r, ?_, h⟩
    show Dbl.mul (.fin x) (if m = 0 then Dbl.nan else roundD (1 / m)) = _
    rw [if_neg hm0.ne', hR]
    exact e

theorem betaPrime_nonneg (fused : Bool) {pow : Dbl → Dbl → Dbl} (hpow : PowContract pow) {eta : ℚ} {a : ℚ} (ha1 : 1 ≤ a) (ha2 : a ≤ 2) {k : ℕ} (hk : k < 2 ^ 53) :
    Dbl.le (.fin 0) (betaPrimeD fused pow (.fin eta) (.fin a) k) = true := by
  have hexp : Dbl.neg (Dbl.add (.fin eta) (.fin 1)) ≠ .nan := neg_ne_nan (roundD_ne_nan _)
  have hu0 : (0 : ℚ) ≤ (k : ℚ) / 2 ^ 53 := by positivity
  have hu1 : (k : ℚ) / 2 ^ 53 ≤ 1 - 1 / 2 ^ 53 := by
    have : (k : ℚ) + 1 ≤ 2 ^ 53 := by exact_mod_cast hk
    rw [div_le_iff₀ (by positivity)]
    norm_num at this ⊢
    linarith
  unfold betaPrimeD unitReal
  generalize (k : ℚ) / 2 ^ 53 = u at *
  have hprod : u * a ≤ 2 - 1 / 2 ^ 52 := by nlinarith
  have hprod0 : 0 ≤ u * a := by nlinarith
  dsimp only
  split
  · exact hpow.nonneg _ _ (le_zero_roundD hprod0) hexp
  · refine hpow.nonneg _ _ ?_ hexp
    -- the divisor is positive
    have hb53 : IsBinary53 ((2 : ℚ) - 1 / 2 ^ 52) := ⟨2 ^ 53 - 1, -52, by norm_num, by norm_num, by norm_num⟩
    have hb52 : IsBinary53 ((1 : ℚ) / 2 ^ 52) := ⟨1, -52, by norm_num, by norm_num, by norm_num⟩
    have hr : -(2 - 1 / 2 ^ 52) ≤ roundQ (-u * a) := le_roundQ_of_binary53 (by linarith) (isBinary53_neg hb53)
    have hr0 : roundQ (-u * a) ≤ 0 := roundQ_nonpos (by linarith)
    obtain ⟨q, hq, hqpos⟩ : ∃ q, Dbl.mulAdd fused (Dbl.neg (.fin u)) (.fin a) (.fin 2) = .fin q ∧ 0 < q := by
      cases fused
      · have h1 : roundD (-u * a) = .fin (roundQ (-u * a)) :=
          roundD_fin (lt_of_le_of_lt hr0 (by positivity))
            (lt_of_lt_of_le (neg_lt_neg (lt_two_pow_1024 (k := 1) (by norm_num) (by norm_num))) hr)
        obtain ⟨q, h2, _, _⟩ : Bnd 1 (roundD (2 + roundQ (-u * a))) := bnd_roundD (by norm_num) (by norm_num) (by
          rw [abs_of_nonneg (by linarith [show (0 : ℚ) < 1 / 2 ^ 52 by norm_num])]; linarith)
        refine ⟨q, ?_, ?_⟩
        · show Dbl.add (.fin 2) (roundD (-u * a)) = .fin q
          rw [h1]; exact h2
        · rw [(roundD_fin_iff.1 h2).1]
          exact lt_of_lt_of_le (by norm_num) (le_roundQ_of_binary53 (x := 1 / 2 ^ 52) (by linarith) hb52)
      · obtain ⟨q, h2, _, _⟩ : Bnd 1 (roundD (2 + -u * a)) := bnd_roundD (by norm_num) (by norm_num) (by
          rw [abs_of_nonneg (by linarith [show (0 : ℚ) < 1 / 2 ^ 52 by norm_num])]; linarith)
        refine ⟨q, h2, ?_⟩
        rw [(roundD_fin_iff.1 h2).1]
        exact lt_of_lt_of_le (by norm_num) (le_roundQ_of_binary53 (x := 1 / 2 ^ 52) (by linarith) hb52)
    rw [hq]
    show Dbl.le (.fin 0) (if q = 0 then .nan else roundD (1 / q)) = true
    rw [if_neg hqpos.ne']
    exact le_zero_roundD (by positivity)

/-- C61: the children of the simulated binary crossover are within the bounds, for every power function that is sound (`PowContract`). `eq` is the tolerant comparison; a number is equal to itself.
If the divisions are compiled as products with the reciprocal, numbers that differ by less than `2^-1022` have to be equal for `eq` (see `C61_sbx_reciprocal_nan`). -/
theorem C61_sbx_partial (recip fused : Bool) (eq : Dbl → Dbl → Bool) (heq : ∀ x, eq x x = true) (htiny : recip = true → EqualIfTiny eq) (pow : Dbl → Dbl → Dbl) (hpow : PowContract pow) (eta : ℚ) (heta : 0 ≤ eta)
    (draws : Nat → ℕ × ℕ) (hd : ∀ i, (draws i).1 < 2 ^ 53 ∧ (draws i).2 < 2 ^ 53)
    (bounds : List (GeneBounds Dbl)) (hb : ∀ b ∈ bounds, SaneBounds 1022 b) (p1 p2 : List Dbl) (hp1 : LegalDoubles bounds p1) (hp2 : LegalDoubles bounds p2) :
    ∃ c1 c2, sbxCrossoverD recip fused eq pow (.fin eta) draws bounds p1 p2 = some (c1, c2) ∧ LegalDoubles bounds c1 ∧ LegalDoubles bounds c2 := by
  refine geneLoopD_ok _ bounds 0 p1 p2 hp1 hp2 ?_
  intro i b x y hmem hx hy
  have hsane := hb b hmem
  obtain ⟨lb, ub, rfl, hlb, hub, hlu, hlbk, hubk⟩ := hb b hmem
  obtain ⟨lb', ub', he, x', hxx, hxd, hx1, hx2⟩ := hx
  cases he; subst hxx
  obtain ⟨lb', ub', he, y', hyy, hyd, hy1, hy2⟩ := hy
  cases he; subst hyy
  rename' x' => x, y' => y
  dsimp only
  rw [(minmax_fin x y).1, (minmax_fin x y).2]
  have hmin : IsDouble (min x y) := by rcases min_choice x y with h | h <;> rw [h] <;> assumption
  have hmax : IsDouble (max x y) := by rcases max_choice x y with h | h <;> rw [h] <;> assumption
  by_cases hq : eq (.fin (max x y)) (.fin (min x y)) = true
  · rw [if_pos hq]
    exact ⟨_, _, rfl, ⟨lb, ub, rfl, x, rfl, hxd, hx1, hx2⟩, ⟨lb, ub, rfl, y, rfl, hyd, hy1, hy2⟩⟩
  · rw [if_neg hq]
    have hne : min x y ≠ max x y := by
      intro h; rw [h] at hq; exact hq (heq _)
    have hlt : min x y < max x y := lt_of_le_of_ne min_le_max hne
    have hxy : x ≠ y := by
      rintro rfl; rw [min_self, max_self] at hne; exact hne rfl
    have bx : Bnd 1022 (.fin x) := within_bnd hsane ⟨lb, ub, rfl, x, rfl, hxd, hx1, hx2⟩
    have by' : Bnd 1022 (.fin y) := within_bnd hsane ⟨lb, ub, rfl, y, rfl, hyd, hy1, hy2⟩
    have bmin : Bnd 1022 (.fin (min x y)) := by rcases min_choice x y with h | h <;> rw [h] <;> assumption
    have bmax : Bnd 1022 (.fin (max x y)) := by rcases max_choice x y with h | h <;> rw [h] <;> assumption
    -- the distance of the parents
    obtain ⟨s, hs, _, hsk⟩ : Bnd 1023 (Dbl.sub (.fin (max x y)) (.fin (min x y))) := bnd_sub (by norm_num) (by norm_num) (by norm_num) bmax bmin
    have hs0 : 0 < s := by
      rw [sub_eq_roundD] at hs
      rw [(roundD_fin_iff.1 hs).1]
      exact roundQ_sub_pos hmax hmin hlt
    have hsr : recip = true → 2 ^ (-1022 : ℤ) ≤ s := by
      intro hr
      rw [sub_eq_roundD] at hs
      rw [(roundD_fin_iff.1 hs).1]
      refine le_roundQ_of_binary53 ?_ (isBinary53_zpow (by norm_num))
      by_contra hc
      refine hq (htiny hr _ _ ?_)
      rw [abs_of_pos (by linarith)]
      exact not_le.mp hc
    obtain ⟨dd, hdd, _, _⟩ : Bnd 1023 (Dbl.sub (.fin x) (.fin y)) := bnd_sub (by norm_num) (by norm_num) (by norm_num) bx by'
    have hd0 : 0 < |dd| := by
      rw [abs_pos]
      rw [sub_eq_roundD] at hdd
      rw [(roundD_fin_iff.1 hdd).1]
      rcases lt_or_gt_of_ne hxy with h | h
      · have h1 := roundQ_sub_pos hyd hxd h
        intro h0
        have h2 := roundQ_nearest (x - y) (isBinary53_neg (roundQ_binary53 (y - x)))
        have h3 : roundQ (x - y) ≤ roundQ (-(2 ^ (-1074 : ℤ))) := by
          apply roundQ_mono
          obtain ⟨a, ha⟩ := binary53_multiple hxd.1
          obtain ⟨b, hb⟩ := binary53_multiple hyd.1
          have hp := two_zpow_pos (-1074)
          have hab : (a : ℚ) < b := by
            rw [ha, hb] at h
            exact lt_of_mul_lt_mul_right h hp.le
          have hab' : (a : ℚ) + 1 ≤ b := by
            have : a < b := by exact_mod_cast hab
            exact_mod_cast this
          rw [ha, hb, ← sub_mul]
          nlinarith
        rw [roundQ_of_binary53 (isBinary53_neg (isBinary53_zpow le_rfl)), h0] at h3
        have := two_zpow_pos (-1074)
        linarith
      · exact (roundQ_sub_pos hxd hyd h).ne'
    obtain ⟨sm, hsm, _, _⟩ : Bnd 1023 (Dbl.add (.fin x) (.fin y)) := bnd_add (by norm_num) (by norm_num) (by norm_num) bx by'
    -- the exponent
    have hexp0 : Dbl.le (Dbl.neg (Dbl.add (.fin eta) (.fin 1))) (.fin 0) = true := by
      have h := le_zero_roundD (x := eta + 1) (by linarith)
      show Dbl.le (Dbl.neg (roundD (eta + 1))) (.fin 0) = true
      rcases nonneg_cases h with h | ⟨q, h, hq⟩
      · rw [h]; rfl
      · rw [h]; exact decide_eq_true (by linarith)
    have hexpn : Dbl.neg (Dbl.add (.fin eta) (.fin 1)) ≠ .nan := neg_ne_nan (roundD_ne_nan _)
    -- the factors alpha
    have halpha : ∀ w : ℚ, 0 ≤ w → ∃ a, Dbl.sub (.fin 2) (pow (Dbl.add (.fin 1) (divR recip (Dbl.mul (.fin 2) (roundD w)) (.fin s))) (Dbl.neg (Dbl.add (.fin eta) (.fin 1)))) = .fin a ∧ 1 ≤ a ∧ a ≤ 2 := by
      intro w hw
      have h1 : Dbl.le (.fin 0) (Dbl.mul (.fin 2) (roundD w)) = true := by
        rcases nonneg_cases (le_zero_roundD hw) with h | ⟨q, h, hq⟩
        · rw [h]; rfl
        · rw [h]; exact le_zero_roundD (by positivity)
      have h2 : Dbl.le (.fin 0) (divR recip (Dbl.mul (.fin 2) (roundD w)) (.fin s)) = true := by
        exact divR_nonneg recip h1 hs0 (fun hr => ⟨hsr hr, le_trans (le_abs_self s) hsk⟩)
      have h3 : Dbl.le (.fin 1) (Dbl.add (.fin 1) (divR recip (Dbl.mul (.fin 2) (roundD w)) (.fin s))) = true := by
        rcases nonneg_cases h2 with h | ⟨q, h, hq⟩
        · rw [h]; rfl
        · rw [h]
          show Dbl.le (.fin 1) (roundD (1 + q)) = true
          have h1q : 1 ≤ roundQ (1 + q) := le_roundQ_of_binary53 (by linarith) (by simpa using isBinary53_zpow (k := 0) (by norm_num))
          rcases nonneg_cases (le_zero_roundD (x := 1 + q) (by linarith)) with h | ⟨r, h, hr⟩
          · rw [h]; rfl
          · rw [h]; rw [(roundD_fin_iff.1 h).1]; exact decide_eq_true h1q
      have h4 : Dbl.le (.fin 0) (Dbl.add (.fin 1) (divR recip (Dbl.mul (.fin 2) (roundD w)) (.fin s))) = true := by
        revert h3
        generalize Dbl.add (.fin 1) (divR recip (Dbl.mul (.fin 2) (roundD w)) (.fin s)) = t
        intro h3
        cases t with
        | nan => cases h3
        | ninf => cases h3
        | pinf => rfl
        | fin t => exact decide_eq_true (by linarith [of_decide_eq_true h3])
      obtain ⟨p, hp, hpd, hp0, hp1⟩ := unit_cases (hpow.isDbl _ _) (hpow.nonneg _ _ h4 hexpn) (hpow.large _ _ h3 hexp0)
      rw [hp, sub_eq_roundD]
      have b1 : (1 : ℚ) ≤ roundQ (2 - p) := le_roundQ_of_binary53 (by linarith) (by simpa using isBinary53_zpow (k := 0) (by norm_num))
      have b2 : roundQ (2 - p) ≤ 2 := roundQ_le_of_binary53 (by linarith) (by simpa using isBinary53_zpow (k := 1) (by norm_num))
      exact ⟨roundQ (2 - p), roundD_fin (lt_two_pow_1024 (k := 1) (by norm_num) (by simpa using b2))
        (lt_of_lt_of_le (by rw [neg_lt_zero]; positivity) (le_trans zero_le_one b1)), b1, b2⟩
    have w1 : 0 ≤ min x y - lb := by linarith [le_min hx1 hy1]
    have w2 : 0 ≤ ub - max x y := by linarith [max_le hx2 hy2]
    obtain ⟨a1, ea1, l1, u1⟩ := halpha _ w1
    obtain ⟨a2, ea2, l2, u2⟩ := halpha _ w2
    rw [sub_eq_roundD (min x y) lb, sub_eq_roundD ub (max x y), hs, ea1, ea2, hdd, hsm]
    have n1 := betaPrime_nonneg fused hpow (eta := eta) l1 u1 (hd i).1
    have n2 := betaPrime_nonneg fused hpow (eta := eta) l2 u2 (hd i).2
    have nn : ∀ {t : Dbl}, Dbl.le (.fin 0) t = true → t ≠ .nan := by
      intro t h h'; rw [h'] at h; cases h
    refine ⟨_, _, rfl, clamp_within hsane ?_ (isDbl_mul _ _), clamp_within hsane ?_ (isDbl_mul _ _)⟩
    · exact pos_mul_ne_nan (by norm_num) (mulAdd_ne_nan fused (mul_pos_ne_nan hd0 (neg_ne_nan (nn n1))))
    · exact pos_mul_ne_nan (by norm_num) (mulAdd_ne_nan fused (mul_pos_ne_nan hd0 (nn n2)))

/-- C61 fails for the simulated binary crossover if the divisions are compiled as products with the reciprocal and the tolerances are zero: the parents differ by `2^-1074`, whose reciprocal
is infinite, and one of them is on the bound, so that `0 * inf` is computed. The gene of the child is NaN for every power function that returns NaN for NaN. -/
theorem C61_sbx_reciprocal_nan (pow : Dbl → Dbl → Dbl) (hpow : ∀ y, pow .nan y = .nan) (eta : Dbl) (k1 k2 : ℕ) : ∃ c2,
    sbxCrossoverD true false (fun a b => decide (a = b)) pow eta (fun _ => (k1, k2)) [⟨.fin 0, .fin 1⟩] [.fin 0] [.fin (2 ^ (-1074 : ℤ))] = some ([.nan], [c2]) := by
  have h1 : Dbl.lt (.fin (2 ^ (-1074 : ℤ))) (.fin 0) = false := by decide +kernel
  have h2 : decide ((Dbl.fin (2 ^ (-1074 : ℤ))) = .fin 0) = false := by decide +kernel
  have h3 : Dbl.add (.fin 1) (divR true (Dbl.mul (.fin 2) (Dbl.sub (.fin 0) (.fin 0))) (Dbl.sub (.fin (2 ^ (-1074 : ℤ))) (.fin 0))) = .nan := by decide +kernel
  have h4 : ∀ k, betaPrimeD false pow eta (Dbl.sub (.fin 2) .nan) k = .nan := by
    intro k
    have e1 : Dbl.le (unitReal k) (Dbl.div (.fin 1) (Dbl.sub (.fin 2) .nan)) = false := rfl
    have e2 : Dbl.div (.fin 1) (Dbl.mulAdd false (Dbl.neg (unitReal k)) (Dbl.sub (.fin 2) .nan) (.fin 2)) = .nan := rfl
    simp only [betaPrimeD, e1, Bool.false_eq_true, if_false, e2, hpow]
  have h5 : ∀ a b, Dbl.clamp (Dbl.mul (.fin (1 / 2)) (Dbl.mulAdd false (Dbl.neg .nan) a b)) (.fin 0) (.fin 1) = .nan := by
    intro a b
    cases a <;> cases b <;> rfl
  unfold sbxCrossoverD
  simp only [geneLoopD, h1, Bool.false_eq_true, if_false, h2, h3, hpow, h4, h5, Option.bind_eq_bind, Option.bind_some, Option.pure_def]
  exact ⟨_, rfl⟩

/-- A power function that meets the contract. -/
example : PowContract (fun _ _ => .fin (1 / 2)) :=
  ⟨fun _ _ => ⟨⟨1, -1, by norm_num, by norm_num, by norm_num⟩, lt_two_pow_1024 (k := 0) (by norm_num) (by rw [abs_of_pos] <;> norm_num)⟩, fun _ _ _ _ => by decide +kernel,
    fun _ _ _ _ _ => by decide +kernel, fun _ _ _ _ => by decide +kernel⟩
example : sbxCrossoverD false false (fun a b => decide (a = b)) (fun _ _ => .fin (1 / 2)) (.fin 2) (fun _ => (2 ^ 52, 2 ^ 51)) [⟨.fin 0, .fin 8⟩, ⟨.fin (-1), .fin 1⟩] [.fin 4, .fin 0]
    [.fin 8, .fin 0] = some ([.fin 5, .fin 0], [.fin 7, .fin 0]) := by decide +kernel

/-! ## Mutations -/

/-- The statement of C61 for a mutation: the mutated chromosome is legal, and differs from the old one only at `count` loci. `ok` says which draws are possible. -/
def DoubleMutationOk {β : Type} (gene : GeneBounds Dbl → β → Dbl → Option Dbl) (ok : β → Prop) (sane : GeneBounds Dbl → Prop) : Prop :=
  ∀ (bounds : List (GeneBounds Dbl)), (∀ b ∈ bounds, sane b) → ∀ (l : List Dbl), LegalDoubles bounds l →
    ∀ (count : Nat), count ≤ l.length → ∀ (selectMany : Bool) (draws : List Int), SampleDraws l.length count selectMany draws →
    ∀ (geneDraws : List β), geneDraws.length = count → (∀ d ∈ geneDraws, ok d) →
    ∃ c loci, realMutateD gene bounds count selectMany draws geneDraws l = some c ∧ loci.length = count ∧ DifferOnlyAt l c loci ∧ LegalDoubles bounds c

/-- C61: `real::Uniform`. -/
theorem C61_uniform_partial (fused : Bool) : DoubleMutationOk (realUniformGeneD fused) (fun k => k < 2 ^ 53) (SaneBounds 1022) := by
  intro bounds hb l hl count hc sm draws hd gd hgl hgd
  exact realMutateD_ok (realUniformGeneD fused) (fun k => k < 2 ^ 53) bounds l hl (fun b d old hmem hk _ => randomReal_within fused (hb b hmem) hk) count hc sm draws hd gd hgl hgd

/-- C61: `real::Uniform` can make a gene infinite if the bounds are the lowest and the largest number. -/
theorem C61_uniform_overflow :
    realMutateD (realUniformGeneD false) [⟨.fin (-(2 ^ 1024 - 2 ^ 971)), .fin (2 ^ 1024 - 2 ^ 971)⟩] 1 false [0] [2 ^ 52] [.fin 0] = some [.pinf] := by decide +kernel

/-- C61: `real::Boundary`, for all finite bounds (every binary64 number is below `2^1024`). -/
theorem C61_boundary : DoubleMutationOk realBoundaryGeneD (fun _ => True) (SaneBounds 1024) := by
  intro bounds hb l hl count hc sm draws hd gd hgl hgd
  refine realMutateD_ok _ _ bounds l hl ?_ count hc sm draws hd gd hgl hgd
  intro b d old hmem _ _
  obtain ⟨lo, hi, rfl, hlo, hhi, hle, _⟩ := hb b hmem
  refine ⟨_, rfl, lo, hi, rfl, ?_⟩
  cases d
  · exact ⟨hi, rfl, hhi, hle, le_rfl⟩
  · exact ⟨lo, rfl, hlo, le_rfl, hle⟩

/-- C61: `real::Gauss`, if the standard deviation does not overflow. (The draws of the normal distribution are finite.) -/
theorem C61_gauss_partial (recip fused : Bool) (sigma : ℚ) (hsigma : 0 < sigma) :
    DoubleMutationOk (realGaussGeneD recip fused (.fin sigma)) (fun z => ∃ q, z = .fin q)
      (fun b => SaneBounds 1022 b ∧ Dbl.isFinite (divR recip (Dbl.sub b.upper b.lower) (.fin sigma)) = true) := by
  intro bounds hb l hl count hc sm draws hd gd hgl hgd
  refine realMutateD_ok _ _ bounds l hl ?_ count hc sm draws hd gd hgl hgd
  intro b z old hmem hz hold
  obtain ⟨hsane, hfin⟩ := hb b hmem
  obtain ⟨q, rfl⟩ := hz
  obtain ⟨x, rfl, hxd, hxk⟩ := within_bnd hsane hold
  have hsd : Dbl.le (.fin 0) (divR recip (Dbl.sub b.upper b.lower) (.fin sigma)) = true := by
    obtain ⟨lo, hi, rfl, hlo, hhi, hle, h1, h2⟩ := hsane
    show Dbl.le (.fin 0) (divR recip (Dbl.sub (.fin hi) (.fin lo)) (.fin sigma)) = true
    replace hfin : Dbl.isFinite (divR recip (Dbl.sub (.fin hi) (.fin lo)) (.fin sigma)) = true := hfin
    rw [sub_eq_roundD] at hfin ⊢
    have h0 := le_zero_roundD (x := hi - lo) (by linarith)
    cases recip with
    | false => exact divR_nonneg false h0 hsigma (by simp)
    | true =>
      have hinv : Dbl.le (.fin 0) (Dbl.div (.fin 1) (.fin sigma)) = true := by
        show Dbl.le (.fin 0) (if sigma = 0 then .nan else roundD (1 / sigma)) = true
        rw [if_neg hsigma.ne']
        exact le_zero_roundD (by positivity)
      simp only [divR, if_true] at hfin ⊢
      rcases nonneg_cases h0 with h | ⟨r, h, hr⟩ <;> rcases nonneg_cases hinv with h' | ⟨r', h', hr'⟩ <;> rw [h, h'] at hfin ⊢
      · rfl
      · rcases eq_or_lt_of_le hr' with h3 | h3
        · subst h3; simp [Dbl.mul, Dbl.scaledInf, Dbl.isFinite] at hfin
        · simp [Dbl.mul, Dbl.scaledInf, h3, Dbl.le]
      · rcases eq_or_lt_of_le hr with h3 | h3
        · subst h3; simp [Dbl.mul, Dbl.scaledInf, Dbl.isFinite] at hfin
        · simp [Dbl.mul, Dbl.scaledInf, h3, Dbl.le]
      · exact le_zero_roundD (by positivity)
  unfold realGaussGeneD
  dsimp only
  rw [if_pos hsd]
  refine ⟨_, rfl, clamp_within hsane (add_ne_nan ?_) (isDbl_add _ _)⟩
  rcases nonneg_cases hsd with h | ⟨r, h, _⟩
  · rw [h] at hfin; cases hfin
  · rw [h]; exact mulAdd_ne_nan fused (roundD_ne_nan _)

/-- `1 - p` for `p` in `[0, 1]`. -/
theorem one_sub_unit {p : ℚ} (h0 : 0 ≤ p) (h1 : p ≤ 1) : Bnd 0 (Dbl.sub (.fin 1) (.fin p)) ∧ Bnd 0 (Dbl.sub (.fin p) (.fin 1)) := by
  rw [sub_eq_roundD, sub_eq_roundD]
  constructor <;> refine bnd_roundD (by norm_num) (by norm_num) ?_ <;> rw [zpow_zero, abs_le] <;> constructor <;> linarith

theorem mulAdd_within (fused : Bool) {b : GeneBounds Dbl} (hsane : SaneBounds 1022 b) {m d old : Dbl} (hm : Bnd 0 m) (hd : Bnd 1023 d) (hold : GeneWithin b old) :
    GeneWithin b (Dbl.clamp (Dbl.mulAdd fused m d old) b.lower b.upper) ∧ GeneWithin b (Dbl.clamp (Dbl.mulAdd fused d m old) b.lower b.upper) := by
  obtain ⟨x, rfl, _⟩ := within_bnd hsane hold
  exact ⟨clamp_within hsane (mulAdd_ne_nan fused (bnd_ne_nan (bnd_mul (m := 1023) (by norm_num) le_rfl (by norm_num) hm hd))) (isDbl_mulAdd ..),
    clamp_within hsane (mulAdd_ne_nan fused (bnd_ne_nan (bnd_mul (m := 1023) (by norm_num) le_rfl (by norm_num) hd hm))) (isDbl_mulAdd ..)⟩

/-- C61: `real::NonUniform`, in every generation before the last one allowed, for every sound power function. -/
theorem C61_nonuniform_partial (recip fused : Bool) (pow : Dbl → Dbl → Dbl) (hpow : PowContract pow) (beta : ℚ) (hbeta : 0 ≤ beta) (gen maxGen : ℕ) (hg : gen < maxGen) (hmax : maxGen < 2 ^ 64) :
    DoubleMutationOk (realNonUniformGeneD recip fused pow (.fin beta) gen maxGen) (fun d => d.1 < 2 ^ 53) (SaneBounds 1022) := by
  intro bounds hb l hl count hc sm draws hd gd hgl hgd
  refine realMutateD_ok _ _ bounds l hl ?_ count hc sm draws hd gd hgl hgd
  intro b d old hmem hk hold
  have hsane := hb b hmem
  -- the progress of the run
  have hnat : ∀ n : ℕ, n < 2 ^ 64 → ofNatD n = .fin (roundQ n) := by
    intro n hn
    have : |(n : ℚ)| ≤ 2 ^ (64 : ℤ) := by
      rw [abs_of_nonneg (by positivity)]; exact_mod_cast hn.le
    obtain ⟨x, hx, _⟩ := bnd_roundD (by norm_num) (by norm_num) this
    show roundD (n : ℚ) = _
    rw [hx, (roundD_fin_iff.1 hx).1]
  have hg0 : 0 ≤ roundQ (gen : ℚ) := roundQ_nonneg (by positivity)
  have hm0 : 1 ≤ roundQ (maxGen : ℚ) := le_roundQ_of_binary53 (by exact_mod_cast (by omega : 1 ≤ maxGen)) (by simpa using isBinary53_zpow (k := 0) (by norm_num))
  have hle : roundQ (gen : ℚ) ≤ roundQ (maxGen : ℚ) := roundQ_mono (by exact_mod_cast hg.le)
  have one53 : IsBinary53 1 := by simpa using isBinary53_zpow (k := 0) (by norm_num)
  have hmk : roundQ (maxGen : ℚ) ≤ 2 ^ (64 : ℤ) := by
    refine roundQ_le_of_binary53 ?_ (isBinary53_zpow (by norm_num))
    exact_mod_cast hmax.le
  obtain ⟨t, ht, ht0, ht1⟩ : ∃ t, Dbl.sub (.fin 1) (divR recip (ofNatD gen) (ofNatD maxGen)) = .fin t ∧ 0 ≤ t ∧ t ≤ 1 := by
    rw [hnat gen (by omega), hnat maxGen hmax]
    obtain ⟨r, hr, hr0, hr1⟩ := divR_unit recip hm0 hmk hg0 hle
    rw [hr]
    obtain ⟨⟨t, ht, _⟩, _⟩ := one_sub_unit hr0 hr1
    refine ⟨t, ht, ?_⟩
    rw [sub_eq_roundD] at ht
    rw [(roundD_fin_iff.1 ht).1]
    exact ⟨roundQ_nonneg (by linarith), roundQ_le_of_binary53 (by linarith) one53⟩
  -- the powers
  have d0 : ∀ {q : ℚ}, 0 ≤ q → Dbl.le (.fin 0) (.fin q) = true := fun h => decide_eq_true h
  have d1 : ∀ {q : ℚ}, q ≤ 1 → Dbl.le (.fin q) (.fin 1) = true := fun h => decide_eq_true h
  obtain ⟨e, he, _, he0, _⟩ := unit_cases (hpow.isDbl (.fin t) (.fin beta)) (hpow.nonneg _ _ (d0 ht0) (by intro h; cases h)) (hpow.small _ _ (d0 ht0) (d1 ht1) (d0 hbeta))
  have hu0 : (0 : ℚ) ≤ (d.1 : ℚ) / 2 ^ 53 := by positivity
  have hu1 : (d.1 : ℚ) / 2 ^ 53 ≤ 1 := by rw [div_le_one (by positivity)]; exact_mod_cast hk.le
  obtain ⟨p, hp, _, hp0, hp1⟩ := unit_cases (hpow.isDbl (unitReal d.1) (.fin e)) (hpow.nonneg _ _ (d0 hu0) (by intro h; cases h)) (hpow.small _ _ (d0 hu0) (d1 hu1) (d0 he0))
  have hmult := (one_sub_unit hp0 hp1).1
  have hbound : Bnd 1022 (if d.2 then b.lower else b.upper) := by
    obtain ⟨lo, hi, rfl, hlo, hhi, _, h1, h2⟩ := hsane
    cases d.2
    · exact ⟨hi, rfl, hhi, h2⟩
    · exact ⟨lo, rfl, hlo, h1⟩
  have hdiff : Bnd 1023 (Dbl.sub (if d.2 then b.lower else b.upper) old) := bnd_sub (by norm_num) (by norm_num) (by norm_num) hbound (within_bnd hsane hold)
  refine ⟨_, rfl, ?_⟩
  rw [ht, he, hp]
  exact (mulAdd_within fused hsane hmult hdiff hold).2

/-- C61: `real::Polynomial`, for every sound power function. -/
theorem C61_polynomial_partial (fused : Bool) (pow : Dbl → Dbl → Dbl) (hpow : PowContract pow) (eta : ℚ) (heta : 0 ≤ eta) :
    DoubleMutationOk (realPolynomialGeneD fused pow (.fin eta)) (fun k => k < 2 ^ 53) (SaneBounds 1022) := by
  intro bounds hb l hl count hc sm draws hd gd hgl hgd
  refine realMutateD_ok _ _ bounds l hl ?_ count hc sm draws hd gd hgl hgd
  intro b k old hmem hk hold
  have hsane := hb b hmem
  have one53 : IsBinary53 1 := by simpa using isBinary53_zpow (k := 0) (by norm_num)
  have d0 : ∀ {q : ℚ}, 0 ≤ q → Dbl.le (.fin 0) (.fin q) = true := fun h => decide_eq_true h
  have d1 : ∀ {q : ℚ}, q ≤ 1 → Dbl.le (.fin q) (.fin 1) = true := fun h => decide_eq_true h
  -- the exponent
  obtain ⟨e0, en⟩ : Dbl.le (.fin 0) (Dbl.div (.fin 1) (Dbl.add (.fin 1) (.fin eta))) = true ∧ Dbl.div (.fin 1) (Dbl.add (.fin 1) (.fin eta)) ≠ .nan := by
    have h0 : Dbl.le (.fin 0) (Dbl.div (.fin 1) (Dbl.add (.fin 1) (.fin eta))) = true := by
      rcases nonneg_cases (le_zero_roundD (x := 1 + eta) (by linarith)) with h | ⟨r, h, hr⟩
      · show Dbl.le (.fin 0) (Dbl.div (.fin 1) (roundD (1 + eta))) = true
        rw [h]; rfl
      · have hr1 : 1 ≤ r := by rw [(roundD_fin_iff.1 h).1]; exact le_roundQ_of_binary53 (by linarith) one53
        show Dbl.le (.fin 0) (Dbl.div (.fin 1) (roundD (1 + eta))) = true
        rw [h]
        show Dbl.le (.fin 0) (if r = 0 then .nan else roundD (1 / r)) = true
        rw [if_neg (by linarith)]
        exact le_zero_roundD (by positivity)
    exact ⟨h0, fun h => by rw [h] at h0; cases h0⟩
  have hu0 : (0 : ℚ) ≤ (k : ℚ) / 2 ^ 53 := by positivity
  have hu1 : (k : ℚ) / 2 ^ 53 ≤ 1 := by rw [div_le_one (by positivity)]; exact_mod_cast hk.le
  unfold realPolynomialGeneD unitReal
  generalize (k : ℚ) / 2 ^ 53 = u at *
  refine ⟨_, rfl, ?_⟩
  have hlow : Bnd 1022 b.lower ∧ Bnd 1022 b.upper := by
    obtain ⟨lo, hi, rfl, hlo, hhi, _, h1, h2⟩ := hsane
    exact ⟨⟨lo, rfl, hlo, h1⟩, ⟨hi, rfl, hhi, h2⟩⟩
  have base : ∀ {a : Dbl} {w : ℚ}, a = .fin w → 0 ≤ w → w ≤ 1 → ∃ p, pow a (Dbl.div (.fin 1) (Dbl.add (.fin 1) (.fin eta))) = .fin p ∧ 0 ≤ p ∧ p ≤ 1 := by
    rintro a w rfl h0 h1
    obtain ⟨p, hp, _, hp0, hp1⟩ := unit_cases (hpow.isDbl _ _) (hpow.nonneg _ _ (d0 h0) en) (hpow.small _ _ (d0 h0) (d1 h1) e0)
    exact ⟨p, hp, hp0, hp1⟩
  by_cases ha : u ≤ 1 / 2
  · rw [if_pos (show Dbl.le (.fin u) (.fin (1 / 2)) = true from decide_eq_true ha)]
    obtain ⟨w, hw, _⟩ : Bnd 0 (Dbl.mul (.fin 2) (.fin u)) := bnd_roundD (by norm_num) (by norm_num) (by rw [zpow_zero, abs_of_nonneg (by positivity)]; linarith)
    have hw' := (roundD_fin_iff.1 hw).1
    obtain ⟨p, hp, hp0, hp1⟩ := base hw (by rw [hw']; exact roundQ_nonneg (by positivity)) (by rw [hw']; exact roundQ_le_of_binary53 (by linarith) one53)
    rw [hp]
    exact (mulAdd_within fused hsane (one_sub_unit hp0 hp1).2 (bnd_sub (k := 1022) (by norm_num) (by norm_num) (by norm_num) (within_bnd hsane hold) hlow.1) hold).1
  · rw [if_neg (show ¬ Dbl.le (.fin u) (.fin (1 / 2)) = true by simpa [Dbl.le] using ha)]
    obtain ⟨w, hw, hw0, hw1⟩ : ∃ w, Dbl.mulAdd fused (.fin (-2)) (.fin u) (.fin 2) = .fin w ∧ 0 ≤ w ∧ w ≤ 1 := by
      have m2 : IsBinary53 (-2) := by simpa using isBinary53_neg (isBinary53_zpow (k := 1) (by norm_num))
      have m1 : IsBinary53 (-1) := isBinary53_neg one53
      have r1 : -2 ≤ roundQ (-2 * u) := le_roundQ_of_binary53 (by linarith) m2
      have r2 : roundQ (-2 * u) ≤ -1 := roundQ_le_of_binary53 (by rw [not_le] at ha; linarith) m1
      rw [not_le] at ha
      cases fused
      · have h1 : Bnd 1 (roundD (-2 * u)) := bnd_roundD (by norm_num) (by norm_num) (by rw [abs_le]; constructor <;> norm_num <;> linarith)
        obtain ⟨v, hv, _⟩ := h1
        have hv' := (roundD_fin_iff.1 hv).1
        obtain ⟨w, hw, _⟩ : Bnd 0 (roundD (2 + v)) := bnd_roundD (by norm_num) (by norm_num) (by rw [hv', zpow_zero, abs_le]; constructor <;> linarith)
        refine ⟨w, ?_, ?_⟩
        · show Dbl.add (.fin 2) (roundD (-2 * u)) = .fin w
          rw [hv]; exact hw
        · rw [(roundD_fin_iff.1 hw).1, hv']
          exact ⟨roundQ_nonneg (by linarith), roundQ_le_of_binary53 (by linarith) one53⟩
      · obtain ⟨w, hw, _⟩ : Bnd 0 (roundD (2 + -2 * u)) := bnd_roundD (by norm_num) (by norm_num) (by rw [zpow_zero, abs_le]; constructor <;> linarith)
        refine ⟨w, hw, ?_⟩
        rw [(roundD_fin_iff.1 hw).1]
        exact ⟨roundQ_nonneg (by linarith), roundQ_le_of_binary53 (by linarith) one53⟩
    obtain ⟨p, hp, hp0, hp1⟩ := base hw hw0 hw1
    rw [hp]
    exact (mulAdd_within fused hsane (one_sub_unit hp0 hp1).1 (bnd_sub (k := 1022) (by norm_num) (by norm_num) (by norm_num) hlow.2 (within_bnd hsane hold)) hold).1

example : realMutateD (realGaussGeneD false false (.fin 2)) [⟨.fin 0, .fin 4⟩, ⟨.fin (-1), .fin 1⟩] 1 false [1] [.fin 3] [.fin 2, .fin 0] = some [.fin 2, .fin 1] := by decide +kernel
example : realMutateD (realNonUniformGeneD false false (fun _ _ => .fin (1 / 2)) (.fin 2) 3 10) [⟨.fin 0, .fin 4⟩, ⟨.fin (-1), .fin 1⟩] 1 false [0] [(2 ^ 51, true)] [.fin 2, .fin 0] =
    some [.fin 1, .fin 0] := by decide +kernel
example : realMutateD (realPolynomialGeneD true (fun _ _ => .fin (1 / 2)) (.fin 2)) [⟨.fin 0, .fin 4⟩, ⟨.fin (-1), .fin 1⟩] 1 false [0] [3 * 2 ^ 51] [.fin 2, .fin 0] =
    some [.fin 3, .fin 0] := by decide +kernel
example : realMutateD realBoundaryGeneD [⟨.fin 0, .fin 4⟩, ⟨.fin (-1), .fin 1⟩] 1 false [1] [true] [.fin 2, .fin 0] = some [.fin 2, .fin (-1)] := by decide +kernel
example : LegalDoubles [⟨.fin 0, .fin 4⟩] [.fin 2] := by
  refine ⟨rfl, ?_⟩
  intro i b g hb hg
  match i with
  | 0 =>
    simp at hb hg; subst hb; subst hg
    exact ⟨0, 4, rfl, 2, rfl, by simpa using isDouble_int (n := 2) (by norm_num), by norm_num, by norm_num⟩
  | i + 1 => simp at hb

end Gapp.Props
