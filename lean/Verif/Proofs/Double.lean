import Verif.Spec.Double
import Mathlib.Tactic.Linarith
import Mathlib.Tactic.Ring
import Mathlib.Tactic.Positivity
import Mathlib.Tactic.FieldSimp
import Mathlib.Tactic.NormNum
/-!
# Rounding
-/

namespace Gapp.Model
open Gapp.Spec

theorem two_zpow_pos (k : ℤ) : (0 : ℚ) < 2 ^ k := by positivity

theorem two_zpow_le {a b : ℤ} (h : a ≤ b) : (2 : ℚ) ^ a ≤ 2 ^ b := zpow_le_zpow_right₀ (by norm_num) h

theorem two_zpow_add (a b : ℤ) : (2 : ℚ) ^ (a + b) = 2 ^ a * 2 ^ b := zpow_add₀ (by norm_num) a b

theorem two_zpow_toNat {n : ℤ} (h : 0 ≤ n) : (2 : ℚ) ^ n = ((2 ^ n.toNat : ℤ) : ℚ) := by
  push_cast
  rw [← zpow_natCast, Int.toNat_of_nonneg h]

theorem binExp_spec {x : ℚ} (hx : x ≠ 0) : (2 : ℚ) ^ binExp x ≤ |x| ∧ |x| < 2 ^ (binExp x + 1) := by
  have hn : x.num.natAbs ≠ 0 := by simpa using hx
  have hd : x.den ≠ 0 := x.den_nz
  have hn1 : ((2 : ℚ) ^ Nat.log2 x.num.natAbs) ≤ (x.num.natAbs : ℚ) := by exact_mod_cast Nat.log2_self_le hn
  have hn2 : (x.num.natAbs : ℚ) < 2 ^ (Nat.log2 x.num.natAbs + 1) := by exact_mod_cast Nat.lt_log2_self
  have hd1 : ((2 : ℚ) ^ Nat.log2 x.den) ≤ (x.den : ℚ) := by exact_mod_cast Nat.log2_self_le hd
  have hd2 : (x.den : ℚ) < 2 ^ (Nat.log2 x.den + 1) := by exact_mod_cast Nat.lt_log2_self
  have hdpos : (0 : ℚ) < x.den := by exact_mod_cast Nat.pos_of_ne_zero hd
  have habs : |x| = (x.num.natAbs : ℚ) / x.den := by
    rw [Nat.cast_natAbs, Int.cast_abs]
    conv_lhs => rw [← Rat.num_div_den x]
    rw [abs_div, abs_of_pos hdpos]
  generalize ha : Nat.log2 x.num.natAbs = a at *
  generalize hb : Nat.log2 x.den = b at *
  have hlt : |x| < 2 ^ ((a : ℤ) - b + 1) := by
    rw [habs, div_lt_iff₀ hdpos]
    calc (x.num.natAbs : ℚ) < 2 ^ (a + 1) := hn2
      _ = 2 ^ ((a : ℤ) - b + 1) * 2 ^ b := by
        rw [← zpow_natCast, ← zpow_natCast, ← two_zpow_add]; congr 1; push_cast; ring
      _ ≤ _ := mul_le_mul_of_nonneg_left hd1 (two_zpow_pos _).le
  have hge : (2 : ℚ) ^ ((a : ℤ) - b - 1) ≤ |x| := by
    rw [habs, le_div_iff₀ hdpos]
    calc (2 : ℚ) ^ ((a : ℤ) - b - 1) * x.den ≤ 2 ^ ((a : ℤ) - b - 1) * 2 ^ (b + 1) := mul_le_mul_of_nonneg_left hd2.le (two_zpow_pos _).le
      _ = 2 ^ a := by
        rw [← zpow_natCast, ← zpow_natCast, ← two_zpow_add]; congr 1; push_cast; ring
      _ ≤ _ := hn1
  unfold binExp
  rw [ha, hb]
  by_cases h : (2 : ℚ) ^ ((a : ℤ) - b) ≤ |x|
  · simp only [if_pos h]
    exact ⟨h, hlt⟩
  · simp only [if_neg h]
    refine ⟨hge, ?_⟩
    rw [sub_add_cancel]
    exact not_le.1 h

theorem nearestEven_near (y : ℚ) : |(nearestEven y : ℚ) - y| ≤ 1 / 2 := by
  have h1 := Int.floor_le y
  have h2 := Int.lt_floor_add_one y
  unfold nearestEven
  split_ifs with a b c <;> push_cast <;> rw [abs_le] <;> constructor <;> linarith

theorem nearestEven_nearest (y : ℚ) (n : ℤ) : |(nearestEven y : ℚ) - y| ≤ |(n : ℚ) - y| := by
  have h1 := Int.floor_le y
  have h2 := Int.lt_floor_add_one y
  have hn : n ≤ ⌊y⌋ ∨ ⌊y⌋ + 1 ≤ n := by omega
  have hn' : (n : ℚ) ≤ ⌊y⌋ ∨ (⌊y⌋ : ℚ) + 1 ≤ n := by
    rcases hn with h | h
    · left; exact_mod_cast h
    · right; exact_mod_cast h
  have key : |(n : ℚ) - y| ≥ y - ⌊y⌋ ∨ |(n : ℚ) - y| ≥ ⌊y⌋ + 1 - y := by
    rcases hn' with h | h
    · left; rw [abs_of_nonpos (by linarith)]; linarith
    · right; rw [abs_of_nonneg (by linarith)]; linarith
  unfold nearestEven
  split_ifs with a b c
  · rw [abs_of_nonpos (by linarith)]
    rcases key with k | k <;> linarith
  · push_cast; rw [abs_of_nonneg (by linarith)]
    rcases key with k | k <;> linarith
  · rw [abs_of_nonpos (by linarith)]
    rcases key with k | k <;> linarith
  · push_cast; rw [abs_of_nonneg (by linarith)]
    rcases key with k | k <;> linarith

theorem nearestEven_bound {y : ℚ} {n : ℤ} (hy : |y| ≤ n) : |nearestEven y| ≤ n := by
  have h := nearestEven_near y
  have hlt : (|nearestEven y| : ℚ) < (n : ℚ) + 1 := by
    have := abs_sub_abs_le_abs_sub (nearestEven y : ℚ) y
    linarith
  have : |nearestEven y| < n + 1 := by exact_mod_cast hlt
  omega

theorem abs_div_ulp {x : ℚ} (hx : x ≠ 0) : |x / 2 ^ ulpExp x| ≤ 2 ^ 53 := by
  rw [abs_div, abs_of_pos (two_zpow_pos _), div_le_iff₀ (two_zpow_pos _)]
  refine le_trans (binExp_spec hx).2.le ?_
  rw [← zpow_natCast, ← two_zpow_add]
  apply two_zpow_le
  have : binExp x - 52 ≤ ulpExp x := le_max_left _ _
  push_cast
  omega

theorem isBinary53_zero : IsBinary53 0 := ⟨0, 0, by norm_num, by norm_num, by norm_num⟩

theorem isBinary53_neg {x : ℚ} (h : IsBinary53 x) : IsBinary53 (-x) := by
  obtain ⟨m, e, hm, he, rfl⟩ := h
  exact ⟨-m, e, by rwa [abs_neg], he, by push_cast; ring⟩

theorem roundQ_binary53 (x : ℚ) : IsBinary53 (roundQ x) := by
  unfold roundQ
  split_ifs with h
  · exact isBinary53_zero
  · refine ⟨nearestEven (x / 2 ^ ulpExp x), ulpExp x, ?_, le_max_right _ _, rfl⟩
    exact nearestEven_bound (by exact_mod_cast abs_div_ulp h)

/-- A multiple of `2^q` is not nearer to `x` than the rounded number, where `q` is the exponent of the last digit. -/
theorem roundQ_grid {x : ℚ} (hx : x ≠ 0) (n : ℤ) : |roundQ x - x| ≤ |(n : ℚ) * 2 ^ ulpExp x - x| := by
  have hp := two_zpow_pos (ulpExp x)
  have h := nearestEven_nearest (x / 2 ^ ulpExp x) n
  have e1 : ∀ k : ℤ, (k : ℚ) * 2 ^ ulpExp x - x = ((k : ℚ) - x / 2 ^ ulpExp x) * 2 ^ ulpExp x := by
    intro k; field_simp
  unfold roundQ
  rw [if_neg hx, e1, e1, abs_mul, abs_mul]
  exact mul_le_mul_of_nonneg_right h (abs_nonneg _)

/-- Rounding gives a nearest number of 53 digits. -/
theorem roundQ_nearest (x : ℚ) {y : ℚ} (hy : IsBinary53 y) : |roundQ x - x| ≤ |y - x| := by
  by_cases hx : x = 0
  · subst hx; simp [roundQ]
  obtain ⟨m, e, hm, he, rfl⟩ := hy
  by_cases hq : ulpExp x ≤ e
  · have : (m : ℚ) * 2 ^ e = ((m * 2 ^ (e - ulpExp x).toNat : ℤ) : ℚ) * 2 ^ ulpExp x := by
      push_cast
      have := two_zpow_toNat (n := e - ulpExp x) (by omega)
      push_cast at this
      rw [mul_assoc, ← this, ← two_zpow_add, sub_add_cancel]
    rw [this]
    exact roundQ_grid hx _
  · have hq' : ulpExp x = binExp x - 52 := by
      unfold ulpExp at hq ⊢; omega
    have hb := (binExp_spec hx).1
    have h52 : (2 : ℚ) ^ binExp x = 2 ^ 52 * 2 ^ ulpExp x := by
      rw [hq', ← zpow_natCast, ← two_zpow_add]; congr 1; push_cast; ring
    have hy : |(m : ℚ) * 2 ^ e| ≤ 2 ^ binExp x := by
      rw [abs_mul, abs_of_pos (two_zpow_pos e)]
      calc |(m : ℚ)| * 2 ^ e ≤ 2 ^ 53 * 2 ^ e := by
            apply mul_le_mul_of_nonneg_right _ (two_zpow_pos e).le
            exact_mod_cast hm
        _ = 2 ^ (53 + e) := by rw [← zpow_natCast, ← two_zpow_add]; rfl
        _ ≤ _ := two_zpow_le (by omega)
    rcases lt_or_gt_of_ne hx with hneg | hpos
    · have hg := roundQ_grid hx (-(2 ^ 52))
      push_cast at hg
      norm_num at h52
      rw [neg_mul, ← h52] at hg
      rw [abs_of_neg hneg] at hb
      refine le_trans hg ?_
      rw [abs_of_nonneg (by linarith)]
      have := neg_abs_le ((m : ℚ) * 2 ^ e)
      exact le_trans (by linarith) (le_abs_self _)
    · have hg := roundQ_grid hx (2 ^ 52)
      push_cast at hg
      norm_num at h52
      rw [← h52] at hg
      rw [abs_of_pos hpos] at hb
      refine le_trans hg ?_
      rw [abs_of_nonpos (by linarith)]
      have := le_abs_self ((m : ℚ) * 2 ^ e)
      exact le_trans (by linarith) (neg_le_abs _)

theorem roundQ_of_binary53 {x : ℚ} (h : IsBinary53 x) : roundQ x = x := by
  have := roundQ_nearest x h
  rw [sub_self, abs_zero] at this
  exact sub_eq_zero.1 (abs_eq_zero.1 (le_antisymm this (abs_nonneg _)))

theorem roundQ_mono {x y : ℚ} (h : x ≤ y) : roundQ x ≤ roundQ y := by
  rcases h.eq_or_lt with rfl | h
  · exact le_rfl
  by_contra hlt
  rw [not_le] at hlt
  have h1 := roundQ_nearest x (roundQ_binary53 y)
  have h2 := roundQ_nearest y (roundQ_binary53 x)
  have h1' := sq_le_sq.2 h1
  have h2' := sq_le_sq.2 h2
  nlinarith

theorem roundQ_zero : roundQ 0 = 0 := if_pos rfl

theorem roundQ_nonneg {x : ℚ} (h : 0 ≤ x) : 0 ≤ roundQ x := by
  have := roundQ_mono h
  rwa [roundQ_zero] at this

theorem isBinary53_zpow {k : ℤ} (h : -1074 ≤ k) : IsBinary53 (2 ^ k) := ⟨1, k, by norm_num, h, by norm_num⟩

theorem roundQ_le_of_binary53 {x y : ℚ} (h : x ≤ y) (hy : IsBinary53 y) : roundQ x ≤ y := by
  have := roundQ_mono h
  rwa [roundQ_of_binary53 hy] at this

theorem le_roundQ_of_binary53 {x y : ℚ} (h : x ≤ y) (hx : IsBinary53 x) : x ≤ roundQ y := by
  have := roundQ_mono h
  rwa [roundQ_of_binary53 hx] at this

/-- Rounding keeps a number below a power of two. -/
theorem abs_roundQ_le {x : ℚ} {k : ℤ} (hk : -1074 ≤ k) (h : |x| ≤ 2 ^ k) : |roundQ x| ≤ 2 ^ k := by
  rw [abs_le] at h ⊢
  exact ⟨le_roundQ_of_binary53 h.1 (isBinary53_neg (isBinary53_zpow hk)), roundQ_le_of_binary53 h.2 (isBinary53_zpow hk)⟩

/-- The multiples of the least positive number up to `2^-1021` are exact. -/
theorem isBinary53_of_small {x : ℚ} {n : ℤ} (hx : x = n * 2 ^ (-1074 : ℤ)) (h : |x| ≤ 2 ^ (-1021 : ℤ)) : IsBinary53 x := by
  refine ⟨n, -1074, ?_, le_rfl, hx⟩
  have h53 : (2 : ℚ) ^ (-1021 : ℤ) = 2 ^ 53 * 2 ^ (-1074 : ℤ) := by
    rw [← zpow_natCast, ← two_zpow_add]; rfl
  rw [hx, abs_mul, abs_of_pos (two_zpow_pos _), h53] at h
  have := le_of_mul_le_mul_right h (two_zpow_pos _)
  exact_mod_cast this

/-- Every binary number is a multiple of the least positive one. -/
theorem binary53_multiple {x : ℚ} (h : IsBinary53 x) : ∃ n : ℤ, x = n * 2 ^ (-1074 : ℤ) := by
  obtain ⟨m, e, _, he, rfl⟩ := h
  refine ⟨m * 2 ^ (e + 1074).toNat, ?_⟩
  have := two_zpow_toNat (n := e + 1074) (by omega)
  push_cast at this ⊢
  rw [mul_assoc, ← this, ← two_zpow_add]
  congr 2
  ring

/-- If the difference of two binary numbers is rounded up, then the rounded difference times a factor below 1 with 53 digits is not above the exact difference. -/
theorem rounded_span {w u : ℚ} {n : ℤ} (hw : 0 ≤ w) (hn : w = n * 2 ^ (-1074 : ℤ)) (hu0 : 0 ≤ u) (hu : u ≤ 1 - 1 / 2 ^ 53) :
    roundQ w * u ≤ w := by
  set d := roundQ w with hd
  have hd0 : 0 ≤ d := roundQ_nonneg hw
  by_cases hdw : d ≤ w
  · nlinarith
  rw [not_le] at hdw
  have hdpos : 0 < d := lt_of_le_of_lt hw hdw
  have hwbig : ¬ |w| ≤ 2 ^ (-1021 : ℤ) := by
    intro h
    exact absurd (roundQ_of_binary53 (isBinary53_of_small hn h)) (ne_of_gt hdw)
  rw [not_le, abs_of_nonneg hw] at hwbig
  have hw0 : w ≠ 0 := by
    intro h; rw [h] at hwbig; exact absurd hwbig (not_lt.2 (two_zpow_pos _).le)
  -- the error is at most half of the last digit of `w`
  obtain ⟨b1, b2⟩ := binExp_spec hw0
  rw [abs_of_nonneg hw] at b1 b2
  have hexp : -1021 ≤ binExp w := by
    by_contra h
    have : (2 : ℚ) ^ (binExp w + 1) ≤ 2 ^ (-1021 : ℤ) := two_zpow_le (by omega)
    linarith
  have hq : ulpExp w = binExp w - 52 := by unfold ulpExp; omega
  have herr : |d - w| ≤ 1 / 2 * 2 ^ ulpExp w := by
    have e1 : d - w = ((nearestEven (w / 2 ^ ulpExp w) : ℚ) - w / 2 ^ ulpExp w) * 2 ^ ulpExp w := by
      rw [hd]; unfold roundQ; rw [if_neg hw0]; have := two_zpow_pos (ulpExp w); field_simp
    rw [e1, abs_mul, abs_of_pos (two_zpow_pos _)]
    exact mul_le_mul_of_nonneg_right (nearestEven_near _) (two_zpow_pos _).le
  rw [abs_of_pos (by linarith)] at herr
  have h53 : 1 / 2 * (2 : ℚ) ^ ulpExp w = 1 / 2 ^ 53 * 2 ^ binExp w := by
    rw [hq, show binExp w = (binExp w - 52) + 52 by ring, two_zpow_add (binExp w - 52) 52]
    norm_num
    ring
  rw [h53] at herr
  have : 1 / 2 ^ 53 * (2 : ℚ) ^ binExp w ≤ 1 / 2 ^ 53 * d := mul_le_mul_of_nonneg_left (by linarith) (by positivity)
  nlinarith

/-- The same when the product is rounded, too. -/
theorem rounded_span_product {w u : ℚ} {n : ℤ} (hw : 0 ≤ w) (hn : w = n * 2 ^ (-1074 : ℤ)) (hu0 : 0 ≤ u) (hu : u ≤ 1 - 1 / 2 ^ 53) :
    roundQ (roundQ w * u) ≤ w := by
  set d := roundQ w with hd
  have hd0 : 0 ≤ d := roundQ_nonneg hw
  have hle : roundQ (d * u) ≤ d := roundQ_le_of_binary53 (by nlinarith) (roundQ_binary53 w)
  by_cases hdw : d ≤ w
  · linarith
  rw [not_le] at hdw
  have hwbig : ¬ |w| ≤ 2 ^ (-1021 : ℤ) := by
    intro h
    exact absurd (roundQ_of_binary53 (isBinary53_of_small hn h)) (ne_of_gt hdw)
  rw [not_le, abs_of_nonneg hw] at hwbig
  have hw0 : w ≠ 0 := by
    intro h; rw [h] at hwbig; exact absurd hwbig (not_lt.2 (two_zpow_pos _).le)
  obtain ⟨b1, b2⟩ := binExp_spec hw0
  rw [abs_of_nonneg hw] at b1 b2
  have hexp : -1021 ≤ binExp w := by
    by_contra h
    have : (2 : ℚ) ^ (binExp w + 1) ≤ 2 ^ (-1021 : ℤ) := two_zpow_le (by omega)
    linarith
  have hq : ulpExp w = binExp w - 52 := by unfold ulpExp; omega
  -- the product is rounded to another number
  have hne : roundQ (d * u) ≠ d := by
    intro heq
    have hdm : d = (nearestEven (w / 2 ^ ulpExp w) : ℚ) * 2 ^ ulpExp w := by rw [hd]; unfold roundQ; rw [if_neg hw0]
    have hg : IsBinary53 (d - 2 ^ ulpExp w) := by
      refine ⟨nearestEven (w / 2 ^ ulpExp w) - 1, ulpExp w, ?_, le_max_right _ _, ?_⟩
      · have h1 : |nearestEven (w / 2 ^ ulpExp w)| ≤ 2 ^ 53 := nearestEven_bound (by exact_mod_cast abs_div_ulp hw0)
        have h2 : 0 < nearestEven (w / 2 ^ ulpExp w) := by
          have : (0 : ℚ) < (nearestEven (w / 2 ^ ulpExp w) : ℚ) * 2 ^ ulpExp w := by rw [← hdm]; linarith
          exact_mod_cast pos_of_mul_pos_left this (two_zpow_pos _).le
        rw [abs_le] at h1 ⊢
        constructor <;> linarith [h1.1, h1.2]
      · rw [hdm]; push_cast; ring
    have hnear := roundQ_nearest (d * u) hg
    rw [heq] at hnear
    have h53 : (2 : ℚ) ^ binExp w = 2 ^ 52 * 2 ^ ulpExp w := by
      rw [hq, ← zpow_natCast, ← two_zpow_add]; congr 1; push_cast; ring
    have hgap := two_zpow_pos (ulpExp w)
    have hdelta : 1 / 2 * 2 ^ ulpExp w < d - d * u := by
      have : 1 / 2 * (2 : ℚ) ^ ulpExp w < d * (1 / 2 ^ 53) := by
        norm_num at h53 ⊢
        linarith
      nlinarith
    rw [abs_of_pos (by linarith)] at hnear
    rcases abs_cases (d - 2 ^ ulpExp w - d * u) with h | h <;> linarith
  have hlt : roundQ (d * u) < d := lt_of_le_of_ne hle hne
  by_contra hgt
  rw [not_le] at hgt
  have hnear := roundQ_nearest w (roundQ_binary53 (d * u))
  rw [← hd, abs_of_pos (by linarith), abs_of_pos (by linarith)] at hnear
  linarith

/-! ## Finite results -/

theorem roundD_fin {x : ℚ} (h1 : roundQ x < 2 ^ 1024) (h2 : -2 ^ 1024 < roundQ x) : roundD x = .fin (roundQ x) := by
  unfold roundD
  rw [if_neg (not_le.2 h1), if_neg (not_le.2 h2)]

theorem roundD_fin_iff {x y : ℚ} : roundD x = .fin y ↔ y = roundQ x ∧ |roundQ x| < 2 ^ 1024 := by
  constructor
  · intro h
    unfold roundD at h
    split_ifs at h with h1 h2
    rw [not_le] at h1 h2
    exact ⟨(Dbl.fin.inj h).symm, abs_lt.2 ⟨h2, h1⟩⟩
  · rintro ⟨rfl, h⟩
    exact roundD_fin (abs_lt.1 h).2 (abs_lt.1 h).1

theorem isDbl_roundD (x : ℚ) : IsDbl (roundD x) := by
  by_cases h1 : 2 ^ 1024 ≤ roundQ x
  · have e : roundD x = .pinf := if_pos h1
    rw [e]; trivial
  · by_cases h2 : roundQ x ≤ -2 ^ 1024
    · have e : roundD x = .ninf := (if_neg h1).trans (if_pos h2)
      rw [e]; trivial
    · rw [roundD_fin (not_le.1 h1) (not_le.1 h2)]
      exact ⟨roundQ_binary53 x, abs_lt.2 ⟨not_le.1 h2, not_le.1 h1⟩⟩

/-- Rounding a number between two binary64 numbers. -/
theorem roundD_between {x lo hi : ℚ} (hlo : IsDouble lo) (hhi : IsDouble hi) (h1 : lo ≤ x) (h2 : x ≤ hi) : DblBetween (roundD x) lo hi := by
  have e1 := le_roundQ_of_binary53 h1 hlo.1
  have e2 := roundQ_le_of_binary53 h2 hhi.1
  have a := abs_lt.1 hlo.2
  have b := abs_lt.1 hhi.2
  have hfin := roundD_fin (x := x) (lt_of_le_of_lt e2 b.2) (lt_of_lt_of_le a.1 e1)
  refine ⟨roundQ x, hfin, ⟨roundQ_binary53 x, abs_lt.2 ⟨lt_of_lt_of_le a.1 e1, lt_of_le_of_lt e2 b.2⟩⟩, e1, e2⟩

theorem sub_eq_roundD (x y : ℚ) : Dbl.sub (.fin x) (.fin y) = roundD (x - y) := by
  show roundD (x + -y) = _
  rw [sub_eq_add_neg]

/-- `randomReal(lbound, ubound)`. -/
theorem randomRealD_spec (fused : Bool) {lo hi : ℚ} (hlo : IsDouble lo) (hhi : IsDouble hi) (hle : lo ≤ hi)
    (hfin : Dbl.isFinite (Dbl.sub (.fin hi) (.fin lo)) = true) {k : ℕ} (hk : k < 2 ^ 53) :
    ∃ r, randomRealD fused (.fin lo) (.fin hi) k = some r ∧ DblBetween r lo hi := by
  have hu0 : (0 : ℚ) ≤ (k : ℚ) / 2 ^ 53 := by positivity
  have hu1 : (k : ℚ) / 2 ^ 53 ≤ 1 - 1 / 2 ^ 53 := by
    have : (k : ℚ) + 1 ≤ 2 ^ 53 := by exact_mod_cast hk
    rw [div_le_iff₀ (by positivity)]
    norm_num at this ⊢
    linarith
  have hw : 0 ≤ hi - lo := by linarith
  obtain ⟨n, hn⟩ : ∃ n : ℤ, hi - lo = n * 2 ^ (-1074 : ℤ) := by
    obtain ⟨a, ha⟩ := binary53_multiple hhi.1
    obtain ⟨b, hb⟩ := binary53_multiple hlo.1
    exact ⟨a - b, by rw [ha, hb]; push_cast; ring⟩
  have hd0 : 0 ≤ roundQ (hi - lo) := roundQ_nonneg hw
  have hd : roundD (hi - lo) = .fin (roundQ (hi - lo)) := by
    rw [sub_eq_roundD] at hfin
    cases h : roundD (hi - lo) with
    | fin y => rw [(roundD_fin_iff.1 h).1]
    | nan => rw [h] at hfin; cases hfin
    | ninf => rw [h] at hfin; cases hfin
    | pinf => rw [h] at hfin; cases hfin
  have hdlt : |roundQ (hi - lo)| < 2 ^ 1024 := (roundD_fin_iff.1 hd).2
  refine ⟨Dbl.mulAdd fused (Dbl.sub (.fin hi) (.fin lo)) (unitReal k) (.fin lo), ?_, ?_⟩
  · unfold randomRealD
    rw [if_pos (show Dbl.le (.fin lo) (.fin hi) = true from decide_eq_true hle)]
  rw [sub_eq_roundD, hd]
  unfold unitReal
  cases fused
  · have hp0 : 0 ≤ roundQ (roundQ (hi - lo) * ((k : ℚ) / 2 ^ 53)) := roundQ_nonneg (mul_nonneg hd0 hu0)
    have hple := rounded_span_product hw hn hu0 hu1
    have hpd : roundQ (roundQ (hi - lo) * ((k : ℚ) / 2 ^ 53)) ≤ roundQ (hi - lo) :=
      roundQ_le_of_binary53 (by nlinarith) (roundQ_binary53 _)
    have hp : roundD (roundQ (hi - lo) * ((k : ℚ) / 2 ^ 53)) = .fin (roundQ (roundQ (hi - lo) * ((k : ℚ) / 2 ^ 53))) :=
      roundD_fin (lt_of_le_of_lt hpd (abs_lt.1 hdlt).2) (lt_of_lt_of_le (by norm_num) hp0)
    show DblBetween (Dbl.add (.fin lo) (roundD _)) lo hi
    rw [hp]
    exact roundD_between hlo hhi (by linarith) (by linarith)
  · show DblBetween (roundD (lo + roundQ (hi - lo) * ((k : ℚ) / 2 ^ 53))) lo hi
    exact roundD_between hlo hhi (by linarith [mul_nonneg hd0 hu0]) (by linarith [rounded_span hw hn hu0 hu1])

end Gapp.Model
