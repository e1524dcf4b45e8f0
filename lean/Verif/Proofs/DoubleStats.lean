import Mathlib.Tactic.Ring
import Mathlib.Tactic.Linarith
import Mathlib.Tactic.FieldSimp
import Mathlib.Tactic.Positivity
import Mathlib.Algebra.Order.BigOperators.Group.List
import Verif.Model.DoubleStats
import Verif.Spec.DoubleStats
import Verif.Proofs.DoubleOps
import Verif.Props.DoubleSelectMethods
/-! # Sums in binary64 arithmetic -/

namespace Gapp.Model
open Gapp.Spec Gapp.Props Dbl

/-- A sum or a difference of two numbers is rounded with a relative error only. -/
theorem roundQ_err_sum {x y : ℚ} (hx : IsBinary53 x) (hy : IsBinary53 y) : |roundQ (x - y) - (x - y)| ≤ |x - y| / 2 ^ 53 := by
  obtain ⟨n, hn⟩ := binary53_multiple hx
  obtain ⟨m, hm⟩ := binary53_multiple hy
  have e : x - y = ((n - m : ℤ) : ℚ) * 2 ^ (-1074 : ℤ) := by rw [hn, hm]; push_cast; ring
  rcases le_or_gt |x - y| (2 ^ (-1021 : ℤ)) with h | h
  · rw [roundQ_of_binary53 (isBinary53_of_small e h), sub_self, abs_zero]
    positivity
  · have hne : x - y ≠ 0 := by
      intro h0
      rw [h0, abs_zero] at h
      exact absurd h (not_lt.2 (two_zpow_pos _).le)
    have hb := binExp_spec hne
    have hbe : -1022 ≤ binExp (x - y) := by
      by_contra hc
      exact absurd (hb.2.trans_le (two_zpow_le (by omega : binExp (x - y) + 1 ≤ -1021))) (not_lt.2 h.le)
    have hu : ulpExp (x - y) = binExp (x - y) - 52 := max_eq_left (by omega)
    have hh := roundQ_half_ulp hne
    rw [hu] at hh
    have e2 : (2 : ℚ) ^ (binExp (x - y) - 52) / 2 = 2 ^ binExp (x - y) / 2 ^ 53 := by
      rw [show binExp (x - y) - 52 = binExp (x - y) + (-52) by ring, two_zpow_add]
      norm_num
      ring
    rw [e2] at hh
    exact hh.trans (div_le_div_of_nonneg_right hb.1 (by positivity))

theorem roundD_small {x : ℚ} {k : ℤ} (hk : -1074 ≤ k) (hk2 : k ≤ 1023) (h : |x| ≤ 2 ^ k) : roundD x = .fin (roundQ x) :=
  roundD_fin_iff.2 ⟨rfl, lt_two_pow_1024 hk2 (abs_roundQ_le hk h)⟩

/-- The error of `z + x * y`. -/
theorem mulAdd_err (fused : Bool) {x y z : ℚ} (h : |z| + 2 * |x * y| ≤ 2 ^ (1022 : ℤ)) :
    ∃ r, mulAdd fused (.fin x) (.fin y) (.fin z) = .fin r ∧ IsBinary53 r ∧ |r - (z + x * y)| ≤ |z| / 2 ^ 53 + 3 * (|x * y| / 2 ^ 53) + 3 * 2 ^ (-1075 : ℤ) := by
  have hη := two_zpow_pos (-1075)
  have hz0 := abs_nonneg z
  have hp0 := abs_nonneg (x * y)
  have h1022 : (2 : ℚ) ^ (1022 : ℤ) ≤ 2 ^ (1023 : ℤ) := two_zpow_le (by norm_num)
  have htri := abs_add_le z (x * y)
  cases fused with
  | true =>
    refine ⟨roundQ (z + x * y), roundD_small (k := 1023) (by norm_num) (by norm_num)
      (htri.trans ((show |z| + |x * y| ≤ |z| + 2 * |x * y| by linarith only [hp0]).trans (h.trans h1022))), roundQ_binary53 _, ?_⟩
    have h1 := (roundQ_err (z + x * y)).1
    have h2 : |z + x * y| / 2 ^ 53 ≤ |z| / 2 ^ 53 + |x * y| / 2 ^ 53 := by rw [← add_div]; gcongr
    have h3 : 0 ≤ |x * y| / 2 ^ 53 := by positivity
    linarith
  | false =>
    have hpr : mul (.fin x) (.fin y) = .fin (roundQ (x * y)) := roundD_small (k := 1022) (by norm_num) (by norm_num)
      ((show |x * y| ≤ |z| + 2 * |x * y| by linarith only [hp0, hz0]).trans h)
    have h1 := (roundQ_err (x * y)).1
    generalize roundQ (x * y) = p at hpr h1
    have hp : |p| ≤ |x * y| + |p - x * y| := by
      have := abs_add_le (x * y) (p - x * y)
      rwa [add_sub_cancel] at this
    have hη1 : (2 : ℚ) ^ (-1075 : ℤ) ≤ 1 := by
      rw [show (1 : ℚ) = 2 ^ (0 : ℤ) by norm_num]
      exact two_zpow_le (by norm_num)
    have h1u : |x * y| / 2 ^ 53 ≤ |x * y| := div_le_self hp0 (by norm_num)
    have hone : (1 : ℚ) ≤ 2 ^ (1022 : ℤ) := by
      rw [show (1 : ℚ) = 2 ^ (0 : ℤ) by norm_num]
      exact two_zpow_le (by norm_num)
    have e1023 : (2 : ℚ) ^ (1023 : ℤ) = 2 ^ (1022 : ℤ) * 2 := by rw [show (1023 : ℤ) = 1022 + 1 by norm_num, two_zpow_add, zpow_one]
    have hzp := abs_add_le z p
    refine ⟨roundQ (z + p), ?_, roundQ_binary53 _, ?_⟩
    · show add (.fin z) (mul (.fin x) (.fin y)) = _
      rw [hpr]
      refine roundD_small (k := 1023) (by norm_num) (by norm_num) ?_
      rw [e1023]
      clear hpr e1023
      generalize (2 : ℚ) ^ (1022 : ℤ) = T at *
      generalize (2 : ℚ) ^ (-1075 : ℤ) = e at *
      linarith
    · have h2 := (roundQ_err (z + p)).1
      have h3 : |z + p| / 2 ^ 53 ≤ |z| / 2 ^ 53 + (|x * y| + (|x * y| / 2 ^ 53 + 2 ^ (-1075 : ℤ))) / 2 ^ 53 := by
        rw [← add_div]
        gcongr
        linarith
      have h4 : (|x * y| + (|x * y| / 2 ^ 53 + 2 ^ (-1075 : ℤ))) / 2 ^ 53 ≤ 2 * (|x * y| / 2 ^ 53) + 2 ^ (-1075 : ℤ) := by
        rw [add_div, add_div]
        have a1 : |x * y| / 2 ^ 53 / 2 ^ 53 ≤ |x * y| / 2 ^ 53 := div_le_self (by positivity) (by norm_num)
        have a2 : (2 : ℚ) ^ (-1075 : ℤ) / 2 ^ 53 ≤ 2 ^ (-1075 : ℤ) := div_le_self hη.le (by norm_num)
        linarith
      have h5 := abs_add_le (roundQ (z + p) - (z + p)) (p - x * y)
      rw [show roundQ (z + p) - (z + p) + (p - x * y) = roundQ (z + p) - (z + x * y) by ring] at h5
      linarith

/-- A loop that adds a term in each step, each time with a small error. -/
theorem sum_err {α : Type} (step : Dbl → α → Dbl) (t a : α → ℚ) (u c κ B : ℚ) (hu : 0 ≤ u) (hc : 0 ≤ c) (hκ : 0 ≤ κ) (N : ℕ) (hN : (2 * N + c) * u ≤ 1 / 2) (l : List α)
    (hl : l.length ≤ N) (hta : ∀ x ∈ l, |t x| ≤ a x) (hB : 3 / 2 * (l.map a).sum + 2 * N * κ ≤ B)
    (hstep : ∀ x ∈ l, ∀ s, |s| ≤ B → ∃ r, step (.fin s) x = .fin r ∧ IsBinary53 r ∧ |r - (s + t x)| ≤ u * |s| + c * u * a x + κ) :
    ∃ r, l.foldl step (.fin 0) = .fin r ∧ IsBinary53 r ∧ |r - (l.map t).sum| ≤ (2 * l.length + c) * u * (l.map a).sum + 2 * l.length * κ := by
  induction l using List.reverseRecOn with
  | nil => exact ⟨0, rfl, isBinary53_zero, by simp⟩
  | append_singleton l x ih =>
    have hlen : l.length + 1 ≤ N := by simpa using hl
    have ha0 : 0 ≤ a x := (abs_nonneg _).trans (hta x (by simp))
    have hA0 : 0 ≤ (l.map a).sum := by
      apply List.sum_nonneg
      intro q hq
      obtain ⟨y, hy, rfl⟩ := List.mem_map.mp hq
      exact (abs_nonneg _).trans (hta y (by simp [hy]))
    have hT : |(l.map t).sum| ≤ (l.map a).sum := by
      clear ih hB hA0 hl hlen hstep
      induction l with
      | nil => simp
      | cons y l ih2 =>
        simp only [List.map_cons, List.sum_cons]
        exact (abs_add_le _ _).trans (add_le_add (hta y (by simp)) (ih2 (fun z hz => hta z (by
          rcases List.mem_append.mp hz with hz | hz
          · simp [hz]
          · simp [List.mem_singleton.mp hz]))))
    simp only [List.map_append, List.sum_append, List.map_cons, List.map_nil, List.sum_cons, List.sum_nil, add_zero] at hB
    obtain ⟨s, hs, _, hse⟩ := ih (by omega) (fun y hy => hta y (by simp [hy])) (by linarith) (fun y hy => hstep y (by simp [hy]))
    have hNk : ((l.length : ℚ) + 1) ≤ N := by exact_mod_cast hlen
    have hk0 : (0 : ℚ) ≤ l.length := by positivity
    have hku : (2 * (l.length : ℚ) + c) * u ≤ 1 / 2 := le_trans (mul_le_mul_of_nonneg_right (by linarith) hu) hN
    have hsabs : |s| ≤ 3 / 2 * (l.map a).sum + 2 * l.length * κ := by
      have h1 := abs_add_le (s - (l.map t).sum) (l.map t).sum
      rw [sub_add_cancel] at h1
      have h2 := mul_le_mul_of_nonneg_right hku hA0
      linarith
    have hkκ : (l.length : ℚ) * κ ≤ N * κ := mul_le_mul_of_nonneg_right (by linarith) hκ
    obtain ⟨r, hr, hrb, hre⟩ := hstep x (by simp) s (by linarith)
    refine ⟨r, by rw [List.foldl_append, hs]; exact hr, hrb, ?_⟩
    simp only [List.map_append, List.sum_append, List.map_cons, List.map_nil, List.sum_cons, List.sum_nil, add_zero, List.length_append, List.length_cons, List.length_nil,
      zero_add, Nat.cast_add, Nat.cast_one]
    have h1 := abs_add_le (r - (s + t x)) (s - (l.map t).sum)
    rw [show r - (s + t x) + (s - (l.map t).sum) = r - ((l.map t).sum + t x) by ring] at h1
    have h2 := mul_le_mul_of_nonneg_left hsabs hu
    have h3 : 2 * (l.length : ℚ) * u ≤ 1 := by nlinarith
    have h4 := mul_le_mul_of_nonneg_right h3 hκ
    have h5 : 0 ≤ u * (l.map a).sum := mul_nonneg hu hA0
    have h6 : 0 ≤ (2 * ((l.length : ℚ) + 1)) * (u * a x) := by positivity
    nlinarith

/-! ## The mean of a column -/

/-- The inverse of a number of candidates. -/
theorem ninv_err {n : ℕ} (h1 : 1 ≤ n) (h2 : n ≤ 2 ^ 46) :
    ∃ w, div (.fin 1) (.fin n) = .fin w ∧ 0 < w ∧ w ≤ 1 ∧ |w - 1 / n| ≤ 2 * (1 / 2 ^ 53) / n := by
  have hn : (1 : ℚ) ≤ n := by exact_mod_cast h1
  have hn0 : (0 : ℚ) < n := by linarith
  have hn2 : (n : ℚ) ≤ 2 ^ 46 := by exact_mod_cast h2
  have hle : 1 / (n : ℚ) ≤ 1 := by rw [div_le_one hn0]; exact hn
  have hpos : 0 < 1 / (n : ℚ) := by positivity
  refine ⟨roundQ (1 / n), ?_, ?_, ?_, ?_⟩
  · show (if (n : ℚ) = 0 then nan else roundD (1 / n)) = _
    rw [if_neg hn0.ne']
    exact roundD_small (k := 0) (by norm_num) (by norm_num) (by rw [abs_of_pos hpos]; simpa using hle)
  · have hw : (2 : ℚ) ^ (-46 : ℤ) ≤ 1 / n := by
      rw [le_div_iff₀ hn0, zpow_neg]
      rw [inv_mul_le_iff₀ (by positivity)]
      have e : (2 : ℚ) ^ (46 : ℤ) * 1 = 2 ^ 46 := by norm_num
      rw [e]
      linarith
    exact (two_zpow_pos _).trans_le (le_roundQ_of_binary53 hw (isBinary53_zpow (by norm_num)))
  · have := abs_roundQ_le (x := 1 / (n : ℚ)) (k := 0) (by norm_num) (by rw [abs_of_pos hpos]; simpa using hle)
    simpa using (le_abs_self _).trans this
  · have h := (roundQ_err (1 / n)).1
    rw [abs_of_pos hpos] at h
    have hη : (2 : ℚ) ^ (-1075 : ℤ) ≤ 1 / n / 2 ^ 53 := by
      have : (2 : ℚ) ^ (-1075 : ℤ) ≤ 2 ^ (-99 : ℤ) := two_zpow_le (by norm_num)
      refine this.trans ?_
      rw [div_div, le_div_iff₀ (by positivity), zpow_neg, inv_mul_le_iff₀ (by positivity)]
      have e : (2 : ℚ) ^ (99 : ℤ) = 2 ^ 46 * 2 ^ 53 := by norm_num
      rw [e, mul_one]
      gcongr
    refine h.trans ((add_le_add le_rfl hη).trans (le_of_eq ?_))
    ring

theorem mean_step_arith {u n q w s r η : ℚ} (hu : 0 ≤ u) (hu2 : u ≤ 1 / 100) (hn : 0 < n) (hw : |w - 1 / n| ≤ 2 * u / n)
    (h : |r - (s + q * w)| ≤ u * |s| + 3 * (u * |q * w|) + 3 * η) : |r - (s + q / n)| ≤ u * |s| + 6 * u * (|q| / n) + 3 * η := by
  have ha : 0 ≤ |q| / n := by positivity
  have e1 : |q * w - q / n| ≤ 2 * u * (|q| / n) := by
    rw [show q * w - q / n = q * (w - 1 / n) by ring, abs_mul]
    refine (mul_le_mul_of_nonneg_left hw (abs_nonneg q)).trans (le_of_eq ?_)
    ring
  have e2 : |q * w| ≤ |q| / n + 2 * u * (|q| / n) := by
    have := abs_add_le (q / n) (q * w - q / n)
    rw [add_sub_cancel, abs_div, abs_of_pos hn] at this
    linarith
  have e3 := abs_add_le (r - (s + q * w)) (q * w - q / n)
  rw [show r - (s + q * w) + (q * w - q / n) = r - (s + q / n) by ring] at e3
  generalize |q| / n = a at *
  have e4 := mul_le_mul_of_nonneg_left e2 hu
  have e5 : u * (u * a) ≤ 1 / 100 * (u * a) := mul_le_mul_of_nonneg_right hu2 (by positivity)
  have e6 : 0 ≤ u * a := by positivity
  nlinarith

theorem sum_map_div (f : ℚ → ℚ) (l : List ℚ) (n : ℚ) : (l.map (fun x => f x / n)).sum = (l.map f).sum / n := by
  induction l with
  | nil => simp
  | cons x l ih => simp [ih, add_div]

theorem sum_map_le (f : ℚ → ℚ) (c : ℚ) (l : List ℚ) (h : ∀ x ∈ l, f x ≤ c) : (l.map f).sum ≤ l.length * c := by
  induction l with
  | nil => simp
  | cons x l ih =>
    have h1 := h x (by simp)
    have h2 := ih (fun y hy => h y (by simp [hy]))
    simp only [List.map_cons, List.sum_cons, List.length_cons, Nat.cast_add, Nat.cast_one]
    linarith

theorem eta_small {n : ℕ} (h2 : n ≤ 2 ^ 46) : 2 * (n : ℚ) * (6 * 2 ^ (-1075 : ℤ)) ≤ 1 := by
  have hn2 : (n : ℚ) ≤ 2 ^ 46 := by exact_mod_cast h2
  have h : (2 : ℚ) ^ (-1075 : ℤ) ≤ 2 ^ (-60 : ℤ) := two_zpow_le (by norm_num)
  have hη := two_zpow_pos (-1075)
  generalize (2 : ℚ) ^ (-1075 : ℤ) = e at *
  have h60 : (2 : ℚ) ^ (-60 : ℤ) = 1 / 2 ^ 60 := by norm_num
  rw [h60] at h
  nlinarith

/-- The first part of the sum for the mean of `N` numbers. -/
theorem mean_prefix_err (fused : Bool) {N : ℕ} (h1 : 1 ≤ N) (h2 : N ≤ 2 ^ 46) {w : ℚ} (hw1 : 0 < w ∧ w ≤ 1) (hw : |w - 1 / N| ≤ 2 * (1 / 2 ^ 53) / N) (qs : List ℚ) (hl : qs.length ≤ N)
    (hq : ∀ q ∈ qs, |q| ≤ 2 ^ (1020 : ℤ)) :
    ∃ r, (qs.map fin).foldl (fun m f => mulAdd fused f (.fin w) m) (.fin 0) = .fin r ∧ IsBinary53 r ∧
      |r - qs.sum / N| ≤ (2 * qs.length + 6) * (1 / 2 ^ 53) * ((qs.map (fun x => |x|)).sum / N) + 2 * qs.length * (3 * 2 ^ (-1075 : ℤ)) := by
  have hN : (1 : ℚ) ≤ N := by exact_mod_cast h1
  have hN0 : (0 : ℚ) < N := by linarith
  have hNu : (2 * (N : ℚ) + 6) * (1 / 2 ^ 53) ≤ 1 / 2 := by
    have hn2 : (N : ℚ) ≤ 2 ^ 46 := by exact_mod_cast h2
    rw [mul_one_div, div_le_iff₀ (by positivity)]
    linarith
  have hη := two_zpow_pos (-1075)
  have hη1 := eta_small h2
  have hT1 : (1 : ℚ) ≤ 2 ^ (1018 : ℤ) := by
    rw [show (1 : ℚ) = 2 ^ (0 : ℤ) by norm_num]
    exact two_zpow_le (by norm_num)
  have e1020 : (2 : ℚ) ^ (1020 : ℤ) = 4 * 2 ^ (1018 : ℤ) := by rw [show (1020 : ℤ) = 1018 + 2 by norm_num, two_zpow_add]; norm_num; ring
  have e1022 : (2 : ℚ) ^ (1022 : ℤ) = 16 * 2 ^ (1018 : ℤ) := by rw [show (1022 : ℤ) = 1018 + 4 by norm_num, two_zpow_add]; norm_num; ring
  rw [List.foldl_map]
  have hA : (qs.map (fun x => |x| / (N : ℚ))).sum ≤ 4 * 2 ^ (1018 : ℤ) := by
    rw [sum_map_div (fun x => |x|), div_le_iff₀ hN0]
    refine (sum_map_le (fun x => |x|) _ qs hq).trans ?_
    rw [← e1020, mul_comm]
    exact mul_le_mul_of_nonneg_left (by exact_mod_cast hl) (two_zpow_pos _).le
  obtain ⟨r, hr, hrb, hre⟩ := sum_err (fun m f => mulAdd fused (.fin f) (.fin w) m) (fun x => x / N) (fun x => |x| / N) (1 / 2 ^ 53) 6 (3 * 2 ^ (-1075 : ℤ))
    (7 * 2 ^ (1018 : ℤ)) (by positivity) (by norm_num) (by positivity) N hNu qs hl (fun x _ => by rw [abs_div, abs_of_pos hN0]) (by
      clear e1020 e1022 hq
      generalize (2 : ℚ) ^ (1018 : ℤ) = T at *
      generalize (2 : ℚ) ^ (-1075 : ℤ) = e at *
      linarith) (by
      intro q hmem s hs
      have hq1 := hq q hmem
      have hqw : |q * w| ≤ 4 * 2 ^ (1018 : ℤ) := by
        rw [abs_mul, abs_of_pos hw1.1, ← e1020]
        exact (mul_le_of_le_one_right (abs_nonneg q) hw1.2).trans hq1
      obtain ⟨r, hr, hrb, hre⟩ := mulAdd_err fused (x := q) (y := w) (z := s) (by
        rw [e1022]
        clear e1020 e1022 hq hq1 hη hη1
        generalize (2 : ℚ) ^ (1018 : ℤ) = T at *
        linarith)
      refine ⟨r, hr, hrb, ?_⟩
      apply mean_step_arith (by positivity) (by norm_num) hN0 hw
      refine hre.trans (le_of_eq ?_)
      ring)
  refine ⟨r, hr, hrb, ?_⟩
  rw [sum_map_div (fun x => x), sum_map_div (fun x => |x|), List.map_id'] at hre
  exact hre

/-! ## The variance of a column -/

theorem var_step_arith {u n δ d p w s r η : ℚ} (hu : 0 ≤ u) (hu2 : u ≤ 1 / 100) (hη : 0 ≤ η) (hn : 1 ≤ n) (hw : |w - 1 / n| ≤ 2 * u / n) (hd : |d - δ| ≤ u * |δ|)
    (hp : |p - d * d| ≤ u * |d * d| + η) (h : |r - (s + p * w)| ≤ u * |s| + 3 * (u * |p * w|) + 3 * η) :
    |r - (s + δ ^ 2 / n)| ≤ u * |s| + 11 * u * (δ ^ 2 / n) + 6 * η := by
  have hn0 : 0 < n := by linarith
  have hδ0 : 0 ≤ δ ^ 2 := sq_nonneg δ
  have d1 : |d| ≤ (1 + u) * |δ| := by
    have := abs_add_le δ (d - δ)
    rw [add_sub_cancel] at this
    linarith
  have d2 : |d * d - δ ^ 2| ≤ 203 / 100 * u * δ ^ 2 := by
    rw [show d * d - δ ^ 2 = (d - δ) * (d + δ) by ring, abs_mul]
    have h1 : |d + δ| ≤ (2 + u) * |δ| := by
      have := abs_add_le d δ
      linarith
    calc |d - δ| * |d + δ| ≤ (u * |δ|) * ((2 + u) * |δ|) := mul_le_mul hd h1 (abs_nonneg _) (by positivity)
      _ = u * (2 + u) * δ ^ 2 := by rw [← sq_abs δ]; ring
      _ ≤ 203 / 100 * u * δ ^ 2 := by
        apply mul_le_mul_of_nonneg_right _ hδ0
        nlinarith
  have d3 : |d * d| ≤ 103 / 100 * δ ^ 2 := by
    have := abs_add_le (δ ^ 2) (d * d - δ ^ 2)
    rw [add_sub_cancel, abs_of_nonneg hδ0] at this
    nlinarith
  have p1 : |p - δ ^ 2| ≤ 4 * u * δ ^ 2 + η := by
    have := abs_add_le (p - d * d) (d * d - δ ^ 2)
    rw [sub_add_sub_cancel] at this
    have := mul_le_mul_of_nonneg_left d3 hu
    nlinarith
  have w1 : |w| ≤ 102 / 100 * (1 / n) := by
    have := abs_add_le (1 / n) (w - 1 / n)
    rw [add_sub_cancel, abs_of_pos (show 0 < 1 / n by positivity)] at this
    have h2 : 2 * u / n ≤ 2 / 100 * (1 / n) := by
      rw [mul_one_div]
      gcongr
      linarith
    linarith
  have q1 : |p * w - δ ^ 2 / n| ≤ 7 * u * (δ ^ 2 / n) + 2 * η := by
    rw [show p * w - δ ^ 2 / n = (p - δ ^ 2) * w + δ ^ 2 * (w - 1 / n) by ring]
    refine (abs_add_le _ _).trans ?_
    rw [abs_mul, abs_mul, abs_of_nonneg hδ0]
    have h1 := mul_le_mul p1 w1 (abs_nonneg w) (by positivity)
    have h2 := mul_le_mul_of_nonneg_left hw hδ0
    have e1 : (4 * u * δ ^ 2 + η) * (102 / 100 * (1 / n)) = 408 / 100 * u * (δ ^ 2 / n) + 102 / 100 * (η * (1 / n)) := by ring
    have e2 : δ ^ 2 * (2 * u / n) = 2 * u * (δ ^ 2 / n) := by ring
    have h3 : η * (1 / n) ≤ η := mul_le_of_le_one_right hη (by rw [div_le_one hn0]; exact hn)
    have h4 : 0 ≤ u * (δ ^ 2 / n) := by positivity
    rw [e1] at h1
    rw [e2] at h2
    linarith
  have q2 : |p * w| ≤ 107 / 100 * (δ ^ 2 / n) + 2 * η := by
    have := abs_add_le (δ ^ 2 / n) (p * w - δ ^ 2 / n)
    rw [add_sub_cancel, abs_of_nonneg (show 0 ≤ δ ^ 2 / n by positivity)] at this
    have h4 : u * (δ ^ 2 / n) ≤ 1 / 100 * (δ ^ 2 / n) := mul_le_mul_of_nonneg_right hu2 (by positivity)
    linarith
  have e3 := abs_add_le (r - (s + p * w)) (p * w - δ ^ 2 / n)
  rw [show r - (s + p * w) + (p * w - δ ^ 2 / n) = r - (s + δ ^ 2 / n) by ring] at e3
  have e4 := mul_le_mul_of_nonneg_left q2 hu
  have e5 : u * η ≤ 1 / 100 * η := mul_le_mul_of_nonneg_right hu2 hη
  have e6 : 0 ≤ u * (δ ^ 2 / n) := by positivity
  generalize δ ^ 2 / n = a at *
  nlinarith

/-- The sum for the variance of a column whose mean was found to be `m`. -/
theorem variance_err (fused : Bool) {N : ℕ} (h1 : 2 ≤ N) (h2 : N ≤ 2 ^ 46) {w : ℚ} (hw1 : 0 < w ∧ w ≤ 1) (hw : |w - 1 / ((N : ℚ) - 1)| ≤ 2 * (1 / 2 ^ 53) / ((N : ℚ) - 1)) (qs : List ℚ)
    (hl : qs.length = N) {m : ℚ} (hm : IsBinary53 m) (hm2 : |m| ≤ 2 ^ (401 : ℤ)) (hq : ∀ q ∈ qs, IsBinary53 q ∧ |q| ≤ 2 ^ (400 : ℤ)) :
    ∃ r, (qs.map fin).foldl (fun v f => mulAdd fused (mul (sub f (.fin m)) (sub f (.fin m))) (.fin w) v) (.fin 0) = .fin r ∧ IsBinary53 r ∧
      |r - squaresQ qs m / ((N : ℚ) - 1)| ≤ (2 * N + 11) * (1 / 2 ^ 53) * (squaresQ qs m / ((N : ℚ) - 1)) + 2 * N * (6 * 2 ^ (-1075 : ℤ)) := by
  have hN : (2 : ℚ) ≤ N := by exact_mod_cast h1
  have hN1 : (1 : ℚ) ≤ (N : ℚ) - 1 := by linarith
  have hN0 : (0 : ℚ) < (N : ℚ) - 1 := by linarith
  have hNu : (2 * (N : ℚ) + 11) * (1 / 2 ^ 53) ≤ 1 / 2 := by
    have hn2 : (N : ℚ) ≤ 2 ^ 46 := by exact_mod_cast h2
    rw [mul_one_div, div_le_iff₀ (by positivity)]
    linarith
  have hη := two_zpow_pos (-1075)
  have hη1 := eta_small h2
  have hT1 : (1 : ℚ) ≤ 2 ^ (804 : ℤ) := by
    rw [show (1 : ℚ) = 2 ^ (0 : ℤ) by norm_num]
    exact two_zpow_le (by norm_num)
  have e401 : (2 : ℚ) ^ (401 : ℤ) = 2 * 2 ^ (400 : ℤ) := by rw [show (401 : ℤ) = 400 + 1 by norm_num, two_zpow_add]; norm_num; ring
  have e402 : (2 : ℚ) ^ (402 : ℤ) = 4 * 2 ^ (400 : ℤ) := by rw [show (402 : ℤ) = 400 + 2 by norm_num, two_zpow_add]; norm_num; ring
  have e804 : (2 : ℚ) ^ (804 : ℤ) = 2 ^ (402 : ℤ) * 2 ^ (402 : ℤ) := by rw [show (804 : ℤ) = 402 + 402 by norm_num, two_zpow_add]
  have e1022 : (8 : ℚ) * 2 ^ (804 : ℤ) ≤ 2 ^ (1022 : ℤ) := by
    rw [show (8 : ℚ) = 2 ^ (3 : ℤ) by norm_num, ← two_zpow_add]
    exact two_zpow_le (by norm_num)
  have hδ : ∀ q ∈ qs, |q - m| ≤ 2 ^ (402 : ℤ) := by
    intro q hmem
    have h3 := (hq q hmem).2
    have h4 := abs_sub q m
    have h5 := (two_zpow_pos 400).le
    rw [e402]
    rw [e401] at hm2
    clear e401 e402 e804 e1022 hT1 hη1 hη hNu
    generalize (2 : ℚ) ^ (400 : ℤ) = T at *
    linarith
  have hδ2 : ∀ q ∈ qs, (q - m) ^ 2 ≤ 2 ^ (804 : ℤ) := by
    intro q hmem
    rw [e804, ← sq_abs, sq]
    exact mul_le_mul (hδ q hmem) (hδ q hmem) (abs_nonneg _) (two_zpow_pos _).le
  rw [List.foldl_map]
  have hA : (qs.map (fun x => (x - m) ^ 2 / ((N : ℚ) - 1))).sum ≤ 2 * 2 ^ (804 : ℤ) := by
    rw [sum_map_div (fun x => (x - m) ^ 2), div_le_iff₀ hN0]
    refine (sum_map_le (fun x => (x - m) ^ 2) _ qs hδ2).trans ?_
    rw [hl, show (2 : ℚ) * 2 ^ (804 : ℤ) * ((N : ℚ) - 1) = (2 * ((N : ℚ) - 1)) * 2 ^ (804 : ℤ) by ring]
    exact mul_le_mul_of_nonneg_right (by linarith only [hN]) (two_zpow_pos _).le
  obtain ⟨r, hr, hrb, hre⟩ := sum_err (fun v f => mulAdd fused (mul (sub (.fin f) (.fin m)) (sub (.fin f) (.fin m))) (.fin w) v) (fun x => (x - m) ^ 2 / ((N : ℚ) - 1))
    (fun x => (x - m) ^ 2 / ((N : ℚ) - 1)) (1 / 2 ^ 53) 11 (6 * 2 ^ (-1075 : ℤ))
    (5 * 2 ^ (804 : ℤ)) (by positivity) (by norm_num) (by positivity) N hNu qs hl.le (fun x _ => (abs_of_nonneg (div_nonneg (sq_nonneg _) hN0.le)).le) (by
      clear e401 e402 e804 e1022 hδ hδ2 hm2 hq
      generalize (2 : ℚ) ^ (804 : ℤ) = T at *
      generalize (2 : ℚ) ^ (-1075 : ℤ) = e at *
      linarith) (by
      intro q hmem s hs
      have hd1 := hδ q hmem
      have hd2 := abs_roundQ_le (k := 402) (by norm_num) hd1
      have hderr := roundQ_err_sum (hq q hmem).1 hm
      have hsub : sub (.fin q) (.fin m) = .fin (roundQ (q - m)) := by
        rw [sub_eq_roundD]
        exact roundD_small (k := 402) (by norm_num) (by norm_num) hd1
      generalize roundQ (q - m) = d at hd2 hderr hsub
      have hdd : |d * d| ≤ 2 ^ (804 : ℤ) := by
        rw [abs_mul, e804]
        exact mul_le_mul hd2 hd2 (abs_nonneg _) (two_zpow_pos _).le
      have hmul : mul (.fin d) (.fin d) = .fin (roundQ (d * d)) := roundD_small (k := 804) (by norm_num) (by norm_num) hdd
      have hp1 := abs_roundQ_le (k := 804) (by norm_num) hdd
      have hperr := (roundQ_err (d * d)).1
      generalize roundQ (d * d) = p at hmul hp1 hperr
      have hpw : |p * w| ≤ 2 ^ (804 : ℤ) := by
        rw [abs_mul, abs_of_pos hw1.1]
        exact (mul_le_of_le_one_right (abs_nonneg p) hw1.2).trans hp1
      obtain ⟨r, hr, hrb, hre⟩ := mulAdd_err fused (x := p) (y := w) (z := s) (by
        refine le_trans ?_ e1022
        clear e401 e402 e804 e1022 hδ hδ2 hm2 hq hη1 hη hd1 hd2 hperr
        generalize (2 : ℚ) ^ (804 : ℤ) = T at *
        linarith)
      refine ⟨r, by simp only [hsub, hmul]; exact hr, hrb, ?_⟩
      apply var_step_arith (d := d) (p := p) (by positivity) (by norm_num) hη.le hN1 hw
      · refine hderr.trans (le_of_eq ?_); ring
      · refine hperr.trans (le_of_eq ?_); ring
      · refine hre.trans (le_of_eq ?_); ring)
  refine ⟨r, hr, hrb, ?_⟩
  rw [sum_map_div (fun x => (x - m) ^ 2), hl] at hre
  exact hre

/-! ## Signs and infinities -/

theorem roundD_three (x : ℚ) : (roundD x = .pinf ∧ 2 ^ 1024 ≤ roundQ x) ∨ (roundD x = .ninf ∧ roundQ x ≤ -2 ^ 1024) ∨ roundD x = .fin (roundQ x) := by
  by_cases h1 : 2 ^ 1024 ≤ roundQ x
  · exact Or.inl ⟨if_pos h1, h1⟩
  · by_cases h2 : roundQ x ≤ -2 ^ 1024
    · exact Or.inr (Or.inl ⟨(if_neg h1).trans (if_pos h2), h2⟩)
    · exact Or.inr (Or.inr (roundD_fin (not_le.1 h1) (not_le.1 h2)))

theorem roundD_nonneg {x : ℚ} (h : 0 ≤ x) : NonnegOrInf (roundD x) := by
  have h0 := roundQ_nonneg h
  rcases roundD_three x with ⟨e, _⟩ | ⟨_, h1⟩ | e
  · rw [e]; trivial
  · have : (0 : ℚ) < 2 ^ 1024 := by positivity
    exact absurd (h0.trans h1) (not_le.2 (neg_neg_iff_pos.mpr this))
  · rw [e]; exact h0

theorem mulAdd_nonneg (fused : Bool) {a v : Dbl} {w : ℚ} (hw : 0 < w) (ha : NonnegOrInf a) (hv : NonnegOrInf v) : NonnegOrInf (mulAdd fused a (.fin w) v) := by
  have hadd : ∀ b c : Dbl, NonnegOrInf b → NonnegOrInf c → NonnegOrInf (add b c) := by
    intro b c hb hc
    cases b <;> cases c <;> first | exact hb.elim | exact hc.elim | trivial | exact roundD_nonneg (add_nonneg hb hc)
  have hmul : NonnegOrInf (mul a (.fin w)) := by
    cases a with
    | nan => exact ha.elim
    | ninf => exact ha.elim
    | fin x => exact roundD_nonneg (mul_nonneg ha hw.le)
    | pinf =>
      show NonnegOrInf (scaledInf w)
      rw [scaledInf, if_pos hw]
      trivial
  cases fused with
  | false => exact hadd _ _ hv hmul
  | true =>
    cases a with
    | fin x =>
      cases v with
      | fin z => exact roundD_nonneg (add_nonneg hv (mul_nonneg ha hw.le))
      | nan => exact hv.elim
      | ninf => exact hv.elim
      | pinf => exact hadd _ _ hv hmul
    | nan => exact ha.elim
    | ninf => exact ha.elim
    | pinf => exact hadd _ _ hv hmul

theorem square_nonneg (q m : ℚ) : NonnegOrInf (mul (sub (.fin q) (.fin m)) (sub (.fin q) (.fin m))) := by
  rw [sub_eq_roundD]
  rcases roundD_three (q - m) with ⟨e, _⟩ | ⟨e, _⟩ | e
  · rw [e]; trivial
  · rw [e]; trivial
  · rw [e]; exact roundD_nonneg (mul_self_nonneg _)

theorem variance_nonneg (fused : Bool) {w m : ℚ} (hw : 0 < w) (qs : List ℚ) (v : Dbl) (hv : NonnegOrInf v) :
    NonnegOrInf ((qs.map fin).foldl (fun v f => mulAdd fused (mul (sub f (.fin m)) (sub f (.fin m))) (.fin w) v) v) := by
  induction qs generalizing v with
  | nil => exact hv
  | cons q qs ih => exact ih _ (mulAdd_nonneg fused hw (square_nonneg q m) hv)

/-- An infinite value makes the sum for the mean infinite or a NaN. -/
theorem mean_infinite_or_nan (fused : Bool) {w : ℚ} (hw : 0 < w) (i : Dbl) (hi : i = pinf ∨ i = ninf) (vals : List Dbl) (s : Dbl) (h : s = i ∨ s = nan ∨ i ∈ vals) :
    vals.foldl (fun m f => mulAdd fused f (.fin w) m) s = i ∨ vals.foldl (fun m f => mulAdd fused f (.fin w) m) s = nan := by
  have hround : ∀ x, roundD x = pinf ∨ roundD x = ninf ∨ ∃ q, roundD x = fin q := by
    intro x
    unfold roundD
    split
    · simp
    · split <;> simp
  have hmul : ∀ f, mul f (.fin w) = nan ∨ mul f (.fin w) = pinf ∨ mul f (.fin w) = ninf ∨ ∃ q, mul f (.fin w) = fin q := by
    intro f
    cases h : mul f (.fin w) <;> simp
  induction vals generalizing s with
  | nil => rcases h with h | h | h <;> simp_all
  | cons f vals ih =>
    apply ih
    have hadd : s = i ∨ s = nan → mulAdd fused f (.fin w) s = i ∨ mulAdd fused f (.fin w) s = nan := by
      intro hs
      have e : mulAdd fused f (.fin w) s = add s (mul f (.fin w)) := by
        rcases hs with rfl | rfl
        · rcases hi with rfl | rfl <;> cases fused <;> cases f <;> rfl
        · cases fused <;> cases f <;> rfl
      rw [e]
      rcases hs with rfl | rfl
      · rcases hmul f with h1 | h1 | h1 | ⟨q, h1⟩ <;> rw [h1] <;> rcases hi with rfl | rfl <;> simp [add]
      · right; rfl
    rcases h with h | h | h
    · rcases hadd (Or.inl h) with h2 | h2 <;> simp [h2]
    · rcases hadd (Or.inr h) with h2 | h2 <;> simp [h2]
    · rcases List.mem_cons.mp h with rfl | h
      · have e : mulAdd fused i (.fin w) s = add s (mul i (.fin w)) := by
          rcases hi with rfl | rfl <;> cases fused <;> rfl
        have e2 : mul i (.fin w) = i := by
          rcases hi with rfl | rfl
          · show scaledInf w = _
            rw [scaledInf, if_pos hw]
          · show scaledInf (-w) = _
            rw [scaledInf, if_neg (by linarith), if_pos (by linarith)]
        show mulAdd fused i (.fin w) s = i ∨ mulAdd fused i (.fin w) s = nan ∨ i ∈ vals
        rw [e, e2]
        cases s <;> rcases hi with rfl | rfl <;> simp [add]
      · exact Or.inr (Or.inr h)

theorem mulAdd_nan_left (fused : Bool) (b c : Dbl) : mulAdd fused nan b c = nan := by
  cases fused <;> cases b <;> cases c <;> rfl

theorem mulAdd_nan_add (fused : Bool) (a b : Dbl) : mulAdd fused a b nan = nan := by
  cases fused <;> cases a <;> cases b <;> rfl

/-- The sum for the mean with infinite values of one sign. -/
theorem mean_pinf (fused : Bool) {N : ℕ} (h1 : 1 ≤ N) (h2 : N ≤ 2 ^ 46) {w : ℚ} (hw1 : 0 < w ∧ w ≤ 1) (hw : |w - 1 / N| ≤ 2 * (1 / 2 ^ 53) / N) (i : Dbl) (hi : i = pinf ∨ i = ninf)
    (vals : List Dbl) (hl : vals.length ≤ N) (hv : ∀ x ∈ vals, x = i ∨ ∃ q, x = fin q ∧ |q| ≤ 2 ^ (1020 : ℤ)) (hmem : i ∈ vals) :
    vals.foldl (fun m f => mulAdd fused f (.fin w) m) (.fin 0) = i := by
  induction vals using List.reverseRecOn with
  | nil => cases hmem
  | append_singleton vals x ih =>
    rw [List.foldl_append, List.foldl_cons, List.foldl_nil]
    have hmi : mul i (.fin w) = i := by
      rcases hi with rfl | rfl
      · show scaledInf w = _
        rw [scaledInf, if_pos hw1.1]
      · show scaledInf (-w) = _
        rw [scaledInf, if_neg (by linarith [hw1.1]), if_pos (by linarith [hw1.1])]
    by_cases hin : i ∈ vals
    · rw [ih (by simp at hl; omega) (fun y hy => hv y (by simp [hy])) hin]
      have e : mulAdd fused x (.fin w) i = add i (mul x (.fin w)) := by
        rcases hi with rfl | rfl <;> cases fused <;> cases x <;> rfl
      rw [e]
      rcases hv x (by simp) with rfl | ⟨q, rfl, hq⟩
      · rw [hmi]
        rcases hi with rfl | rfl <;> rfl
      · have : mul (.fin q) (.fin w) = fin (roundQ (q * w)) := by
          refine roundD_small (k := 1020) (by norm_num) (by norm_num) ?_
          rw [abs_mul, abs_of_pos hw1.1]
          exact (mul_le_of_le_one_right (abs_nonneg q) hw1.2).trans hq
        rw [this]
        rcases hi with rfl | rfl <;> rfl
    · have hx : x = i := by
        rcases List.mem_append.mp hmem with h | h
        · exact absurd h hin
        · exact (List.mem_singleton.mp h).symm
      subst hx
      have hqs : ∃ qs : List ℚ, vals = qs.map fin ∧ ∀ q ∈ qs, |q| ≤ 2 ^ (1020 : ℤ) := by
        have hv2 : ∀ y ∈ vals, ∃ q, y = fin q ∧ |q| ≤ 2 ^ (1020 : ℤ) := by
          intro y hy
          rcases hv y (by simp [hy]) with h | h
          · exact absurd (h ▸ hy) hin
          · exact h
        clear ih hl hv hmem hin
        induction vals with
        | nil => exact ⟨[], rfl, by simp⟩
        | cons y vals ih =>
          obtain ⟨q, rfl, hq⟩ := hv2 y (by simp)
          obtain ⟨qs, rfl, hqs⟩ := ih (fun z hz => hv2 z (by simp [hz]))
          exact ⟨q :: qs, rfl, by simpa using ⟨hq, hqs⟩⟩
      obtain ⟨qs, rfl, hqs⟩ := hqs
      obtain ⟨r, hr, -, -⟩ := mean_prefix_err fused h1 h2 hw1 hw qs (by simp at hl; omega) hqs
      rw [hr]
      have e : mulAdd fused x (.fin w) (.fin r) = add (.fin r) (mul x (.fin w)) := by
        rcases hi with rfl | rfl <;> cases fused <;> rfl
      rw [e, hmi]
      rcases hi with rfl | rfl <;> rfl

/-- The sum for the variance is a NaN if one of the values is not a number while the mean is that infinity or a NaN. -/
theorem variance_nan (fused : Bool) (w : Dbl) (m f : Dbl) (h : sub f m = nan) (vals : List Dbl) (s : Dbl) (hs : s = nan ∨ f ∈ vals) :
    vals.foldl (fun v f => mulAdd fused (mul (sub f m) (sub f m)) w v) s = nan := by
  induction vals generalizing s with
  | nil => rcases hs with hs | hs
           · exact hs
           · cases hs
  | cons x vals ih =>
    apply ih
    rcases hs with rfl | hs
    · exact Or.inl (mulAdd_nan_add _ _ _)
    · rcases List.mem_cons.mp hs with rfl | hs
      · left
        show mulAdd fused (mul (sub f m) (sub f m)) w s = nan
        rw [h]
        exact mulAdd_nan_left _ _ _
      · exact Or.inr hs

end Gapp.Model
