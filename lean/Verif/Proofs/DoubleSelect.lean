import Verif.Model.DoubleSelect
import Verif.Spec.DoubleSelect
import Verif.Proofs.DoubleOps
import Verif.Props.Algorithm
import Mathlib.Tactic.Linarith
import Mathlib.Tactic.NormNum
import Mathlib.Tactic.FieldSimp
import Mathlib.Tactic.Ring
import Mathlib.Tactic.Positivity
/-!
# Rounding errors of sums, and the draws that select a candidate
-/

namespace Gapp.Model
open Gapp.Spec Gapp.Props

/-! ## The error of rounding -/

theorem roundQ_le_double {x : ℚ} (h : 0 ≤ x) : roundQ x ≤ 2 * x := by
  have := abs_le.1 (roundQ_nearest x isBinary53_zero)
  rw [zero_sub, abs_neg, abs_of_nonneg h] at this
  linarith [this.2]

theorem binExp_ge {x : ℚ} (h : (2 : ℚ) ^ (-1074 : ℤ) ≤ x) : -1074 ≤ binExp x := by
  have h0 : 0 < x := lt_of_lt_of_le (two_zpow_pos _) h
  have h1 := (binExp_spec h0.ne').2
  rw [abs_of_pos h0] at h1
  have := (zpow_lt_zpow_iff_right₀ (by norm_num : (1 : ℚ) < 2)).1 (lt_of_le_of_lt h h1)
  omega

theorem half_le_roundQ {x : ℚ} (h : (2 : ℚ) ^ (-1074 : ℤ) ≤ x) : x / 2 ≤ roundQ x := by
  have h0 : 0 < x := lt_of_lt_of_le (two_zpow_pos _) h
  obtain ⟨h1, h2⟩ := binExp_spec h0.ne'
  rw [abs_of_pos h0] at h1 h2
  have h3 := le_roundQ_of_binary53 h1 (isBinary53_zpow (binExp_ge h))
  rw [two_zpow_add, zpow_one] at h2
  linarith

/-- The error is at most half a unit in the last place of the exact value, and of the result; or at most half of the least positive number. -/
theorem roundQ_err (x : ℚ) : |roundQ x - x| ≤ |x| / 2 ^ 53 + 2 ^ (-1075 : ℤ) ∧ |roundQ x - x| ≤ |roundQ x| / 2 ^ 53 + 2 ^ (-1075 : ℤ) := by
  have hη := two_zpow_pos (-1075)
  by_cases hx : x = 0
  · subst hx
    rw [roundQ_zero, sub_self, abs_zero, zero_div, zero_add]
    exact ⟨hη.le, hη.le⟩
  have h := roundQ_half_ulp hx
  have hb := (binExp_spec hx).1
  rcases le_total (binExp x - 52) (-1074) with hc | hc
  · have e : ulpExp x = -1074 := max_eq_right hc
    rw [e] at h
    have e2 : (2 : ℚ) ^ (-1074 : ℤ) / 2 = 2 ^ (-1075 : ℤ) := by
      rw [show (-1074 : ℤ) = -1075 + 1 by norm_num, two_zpow_add, zpow_one, mul_div_assoc]; norm_num
    rw [e2] at h
    exact ⟨h.trans (by linarith [show 0 ≤ |x| / 2 ^ 53 by positivity]), h.trans (by linarith [show 0 ≤ |roundQ x| / 2 ^ 53 by positivity])⟩
  · have e : ulpExp x = binExp x - 52 := max_eq_left hc
    rw [e] at h
    have e2 : (2 : ℚ) ^ (binExp x - 52) / 2 = 2 ^ binExp x / 2 ^ 53 := by
      rw [show binExp x - 52 = binExp x + (-52) by ring, two_zpow_add]
      norm_num
      ring
    rw [e2] at h
    have hr : (2 : ℚ) ^ binExp x ≤ |roundQ x| := by
      rcases le_total 0 x with h0 | h0
      · rw [abs_of_nonneg h0] at hb
        rw [abs_of_nonneg (roundQ_nonneg h0)]
        exact le_roundQ_of_binary53 hb (isBinary53_zpow (by omega))
      · rw [abs_of_nonpos h0] at hb
        have := roundQ_le_of_binary53 (x := x) (y := -2 ^ binExp x) (by linarith) (isBinary53_neg (isBinary53_zpow (by omega)))
        exact le_abs.2 (Or.inr (by linarith))
    have g1 : (2 : ℚ) ^ binExp x / 2 ^ 53 ≤ |x| / 2 ^ 53 := by gcongr
    have g2 : (2 : ℚ) ^ binExp x / 2 ^ 53 ≤ |roundQ x| / 2 ^ 53 := by gcongr
    exact ⟨by linarith, by linarith⟩

/-! ## Sums -/

theorem isBinary53_nat {n : ℕ} (h : n ≤ 2 ^ 53) : IsBinary53 n := ⟨n, 0, by rw [Nat.abs_cast]; exact_mod_cast h, by norm_num, by norm_num⟩

theorem isDouble_nat {n : ℕ} (h : n ≤ 2 ^ 53) : IsDouble n := by
  refine ⟨isBinary53_nat h, ?_⟩
  have h1 : |(n : ℚ)| ≤ 2 ^ (53 : ℤ) := by rw [Nat.abs_cast]; exact_mod_cast h
  exact lt_two_pow_1024 (by norm_num) h1

/-! ## The running sums -/

/-- The rounded sum of the first `i` terms. -/
def preQ (ts : List ℚ) (i : ℕ) : ℚ := (ts.take i).foldl (fun a t => roundQ (a + t)) 0

theorem preQ_zero (ts : List ℚ) : preQ ts 0 = 0 := rfl

theorem preQ_succ {ts : List ℚ} {i : ℕ} {t : ℚ} (h : ts[i]? = some t) : preQ ts (i + 1) = roundQ (preQ ts i + t) := by
  unfold preQ
  rw [List.take_add_one, h, Option.toList_some, List.foldl_append]
  rfl

theorem preQ_binary53 (ts : List ℚ) (i : ℕ) (h : i ≤ ts.length) : IsBinary53 (preQ ts i) := by
  cases i with
  | zero => exact isBinary53_zero
  | succ i =>
    have hi : i < ts.length := h
    rw [preQ_succ (List.getElem?_eq_getElem hi)]
    exact roundQ_binary53 _

theorem preQ_step {ts : List ℚ} (h0 : ∀ t ∈ ts, 0 ≤ t) {i : ℕ} (hi : i < ts.length) : preQ ts i ≤ preQ ts (i + 1) := by
  rw [preQ_succ (List.getElem?_eq_getElem hi)]
  exact le_roundQ_of_binary53 (by linarith [h0 _ (List.getElem_mem hi)]) (preQ_binary53 ts i hi.le)

theorem preQ_mono {ts : List ℚ} (h0 : ∀ t ∈ ts, 0 ≤ t) {i j : ℕ} (hij : i ≤ j) (hj : j ≤ ts.length) : preQ ts i ≤ preQ ts j := by
  induction j with
  | zero => rw [Nat.le_zero.1 hij]
  | succ j ih =>
    rcases Nat.eq_or_lt_of_le hij with rfl | h
    · exact le_rfl
    · exact (ih (by omega) (by omega)).trans (preQ_step h0 hj)

theorem preQ_nonneg {ts : List ℚ} (h0 : ∀ t ∈ ts, 0 ≤ t) {i : ℕ} (hi : i ≤ ts.length) : 0 ≤ preQ ts i := preQ_mono h0 (Nat.zero_le i) hi

theorem preQ_le {ts : List ℚ} (h8 : ∀ t ∈ ts, t ≤ 8) {i : ℕ} (hi : i ≤ ts.length) (hn : ts.length ≤ 2 ^ 50) : preQ ts i ≤ ((8 * i : ℕ) : ℚ) := by
  induction i with
  | zero => rw [preQ_zero]; norm_num
  | succ i ih =>
    rw [preQ_succ (List.getElem?_eq_getElem hi)]
    refine roundQ_le_of_binary53 ?_ (isBinary53_nat (by omega))
    have := ih (by omega)
    have h := h8 _ (List.getElem_mem hi)
    push_cast at this ⊢
    linarith

theorem term_le_preQ {ts : List ℚ} (h0 : ∀ t ∈ ts, 0 ≤ t) (hb : ∀ t ∈ ts, IsBinary53 t) {i : ℕ} (hi : i < ts.length) : ts[i] ≤ preQ ts (i + 1) := by
  rw [preQ_succ (List.getElem?_eq_getElem hi)]
  exact le_roundQ_of_binary53 (by linarith [preQ_nonneg h0 hi.le]) (hb _ (List.getElem_mem hi))

/-- The sequential scan, in terms of the rounded sums. -/
theorem scanD_eq (pre ts : List ℚ) (h0 : ∀ t ∈ pre ++ ts, 0 ≤ t) (h8 : ∀ t ∈ pre ++ ts, t ≤ 8) (hn : (pre ++ ts).length ≤ 2 ^ 50) :
    scanD (.fin (preQ (pre ++ ts) pre.length)) (ts.map .fin) = (List.range' pre.length ts.length).map (fun i => Dbl.fin (preQ (pre ++ ts) (i + 1))) := by
  induction ts generalizing pre with
  | nil => rfl
  | cons t ts ih =>
    have hget : (pre ++ t :: ts)[pre.length]? = some t := by simp
    have hlt : pre.length < (pre ++ t :: ts).length := by simp
    have hadd : Dbl.add (.fin (preQ (pre ++ t :: ts) pre.length)) (.fin t) = .fin (preQ (pre ++ t :: ts) (pre.length + 1)) := by
      show roundD _ = _
      have hle := preQ_le h8 (i := pre.length + 1) hlt hn
      have hge := preQ_nonneg h0 (i := pre.length + 1) hlt
      have hd := (isDouble_nat (n := 8 * (pre.length + 1)) (by omega)).2
      rw [Nat.abs_cast] at hd
      rw [preQ_succ hget] at hle hge ⊢
      exact roundD_fin (lt_of_le_of_lt hle hd) (lt_of_lt_of_le (neg_lt_zero.2 (by positivity)) hge)
    have hap : pre ++ t :: ts = (pre ++ [t]) ++ ts := by simp
    have := ih (pre ++ [t]) (by rwa [← hap]) (by rwa [← hap]) (by rwa [← hap])
    rw [← hap, List.length_append, List.length_singleton] at this
    rw [List.map_cons, scanD, hadd, this, List.length_cons, List.range'_succ, List.map_cons]

theorem inclusiveScanD_eq (ts : List ℚ) (h0 : ∀ t ∈ ts, 0 ≤ t) (h8 : ∀ t ∈ ts, t ≤ 8) (hb : ∀ t ∈ ts, IsBinary53 t) (hn : ts.length ≤ 2 ^ 50) :
    inclusiveScanD (ts.map .fin) = (List.range ts.length).map (fun i => Dbl.fin (preQ ts (i + 1))) := by
  cases ts with
  | nil => rfl
  | cons t ts =>
    have e : preQ (t :: ts) 1 = t := by
      rw [show (1 : ℕ) = 0 + 1 by rfl, preQ_succ (t := t) (by simp), preQ_zero, zero_add]
      exact roundQ_of_binary53 (hb t (by simp))
    have := scanD_eq [t] ts h0 h8 hn
    rw [List.length_singleton, show [t] ++ ts = t :: ts from rfl, e] at this
    rw [List.map_cons, inclusiveScanD, this, List.length_cons, List.range_eq_range', List.range'_succ, List.map_cons, e]

/-! ## Sampling -/

/-- The threshold of `sampleCdf` for the draw `k`. -/
def thrQ (back : ℚ) (k : ℕ) : ℚ := roundQ (back * ((k : ℚ) / 2 ^ 53))

theorem mulAdd_zero (fused : Bool) {a b : ℚ} (h : |roundQ (a * b)| < 2 ^ 1024) : Dbl.mulAdd fused (.fin a) (.fin b) (.fin 0) = .fin (roundQ (a * b)) := by
  have e : roundD (a * b) = .fin (roundQ (a * b)) := roundD_fin (abs_lt.1 h).2 (abs_lt.1 h).1
  cases fused
  · show Dbl.add (.fin 0) (roundD (a * b)) = _
    rw [e]
    show roundD (0 + roundQ (a * b)) = _
    rw [zero_add]
    have e2 := roundQ_of_binary53 (roundQ_binary53 (a * b))
    rw [roundD_fin (by rw [e2]; exact (abs_lt.1 h).2) (by rw [e2]; exact (abs_lt.1 h).1), e2]
  · show roundD (0 + a * b) = _
    rw [zero_add, e]

theorem draw_lt_one {k : ℕ} (hk : k < 2 ^ 53) : (k : ℚ) / 2 ^ 53 < 1 := by
  rw [div_lt_one (by positivity)]
  exact_mod_cast hk

theorem thrQ_le {back : ℚ} (hb : IsDouble back) (h0 : 0 ≤ back) {k : ℕ} (hk : k < 2 ^ 53) : thrQ back k ≤ back :=
  roundQ_le_of_binary53 (by nlinarith [draw_lt_one hk, show (0 : ℚ) ≤ (k : ℚ) / 2 ^ 53 by positivity]) hb.1

theorem thrQ_nonneg {back : ℚ} (h0 : 0 ≤ back) (k : ℕ) : 0 ≤ thrQ back k := roundQ_nonneg (by positivity)

theorem randomRealD_zero (fused : Bool) {back : ℚ} (hb : IsDouble back) (h0 : 0 ≤ back) {k : ℕ} (hk : k < 2 ^ 53) :
    randomRealD fused (.fin 0) (.fin back) k = some (.fin (thrQ back k)) := by
  have e : Dbl.sub (.fin back) (.fin 0) = .fin back := by
    rw [sub_eq_roundD, sub_zero]
    have := roundQ_of_binary53 hb.1
    rw [roundD_fin (by rw [this]; exact (abs_lt.1 hb.2).2) (by rw [this]; exact (abs_lt.1 hb.2).1), this]
  unfold randomRealD
  have hle : Dbl.le (.fin 0) (.fin back) = true := decide_eq_true h0
  rw [if_pos hle, e]
  congr 1
  refine mulAdd_zero fused ?_
  have h1 := thrQ_le hb h0 hk
  have h2 := thrQ_nonneg h0 k
  change |thrQ back k| < _
  rw [abs_of_nonneg h2]
  exact lt_of_le_of_lt h1 (abs_lt.1 hb.2).2

/-- What `sampleCdf` returns for the running sums of the terms. -/
theorem sampleCdfD_iff (fused : Bool) (ts : List ℚ) (hne : ts ≠ []) (h0 : ∀ t ∈ ts, 0 ≤ t) (h8 : ∀ t ∈ ts, t ≤ 8) (hn : ts.length ≤ 2 ^ 50) {k : ℕ} (hk : k < 2 ^ 53) :
    ∃ i, sampleCdfD fused ((List.range ts.length).map (fun i => Dbl.fin (preQ ts (i + 1)))) k = some i ∧ i < ts.length ∧
      ∀ j, j < ts.length → (i ≤ j ↔ thrQ (preQ ts ts.length) k ≤ preQ ts (j + 1)) := by
  have hpos : 0 < ts.length := List.length_pos_iff.2 hne
  set v := (List.range ts.length).map (fun i => Dbl.fin (preQ ts (i + 1))) with hv
  set B := preQ ts ts.length with hB
  have hBd : IsDouble B := by
    refine ⟨preQ_binary53 ts _ le_rfl, ?_⟩
    rw [abs_of_nonneg (preQ_nonneg h0 le_rfl)]
    have hd := (isDouble_nat (n := 8 * ts.length) (by omega)).2
    rw [Nat.abs_cast] at hd
    exact lt_of_le_of_lt (preQ_le h8 le_rfl hn) hd
  have hB0 : 0 ≤ B := preQ_nonneg h0 le_rfl
  have hvl : v.length = ts.length := by simp [hv]
  have hvi : ∀ j, j < ts.length → v[j]? = some (Dbl.fin (preQ ts (j + 1))) := by
    intro j hj
    simp [hv, hj]
  have hhead : v.head? = some (Dbl.fin (preQ ts 1)) := by
    rw [List.head?_eq_getElem?]; exact hvi 0 hpos
  have hlast : v.getLast? = some (Dbl.fin B) := by
    rw [List.getLast?_eq_getElem?, hvl, hvi _ (by omega), show ts.length - 1 + 1 = ts.length by omega]
  have hthr := randomRealD_zero fused hBd hB0 hk
  have hex : ∃ i, i < ts.length ∧ thrQ B k ≤ preQ ts (i + 1) := ⟨ts.length - 1, by omega, by
    rw [show ts.length - 1 + 1 = ts.length by omega]; exact thrQ_le hBd hB0 hk⟩
  classical
  let i := Nat.find hex
  obtain ⟨hi1, hi2⟩ : i < ts.length ∧ thrQ B k ≤ preQ ts (i + 1) := Nat.find_spec hex
  have hiff : ∀ j, j < ts.length → (i ≤ j ↔ thrQ B k ≤ preQ ts (j + 1)) := by
    intro j hj
    constructor
    · intro h
      exact hi2.trans (preQ_mono h0 (by omega) (by omega))
    · intro h
      exact Nat.find_min' hex ⟨hj, h⟩
  refine ⟨i, ?_, hi1, hiff⟩
  unfold sampleCdfD
  rw [hhead]
  have hf : Dbl.le (.fin 0) (.fin (preQ ts 1)) = true := decide_eq_true (preQ_nonneg h0 hpos)
  simp only [Option.bind_eq_bind, Option.bind_some, hf, if_true, hlast, hthr]
  refine C48_lower_bound _ v i ⟨by omega, ?_⟩
  intro j x hx
  have hj : j < ts.length := by
    rw [← hvl]; exact (List.getElem?_eq_some_iff.1 hx).1
  rw [hvi j hj] at hx
  cases hx
  show decide _ = decide _
  rw [decide_eq_decide, ← not_le, ← hiff j hj, not_le]

/-! ## Counting draws -/

theorem thrQ_err {back : ℚ} (h0 : 2 ^ (-49 : ℤ) ≤ back) {k : ℕ} (hk : k < 2 ^ 53) : |thrQ back k - back * ((k : ℚ) / 2 ^ 53)| ≤ 2 * back / 2 ^ 53 := by
  have hb : 0 < back := lt_of_lt_of_le (two_zpow_pos _) h0
  have h := (roundQ_err (back * ((k : ℚ) / 2 ^ 53))).1
  have hk1 := draw_lt_one hk
  have hk0 : (0 : ℚ) ≤ (k : ℚ) / 2 ^ 53 := by positivity
  rw [abs_of_nonneg (mul_nonneg hb.le hk0)] at h
  have h2 : back * ((k : ℚ) / 2 ^ 53) ≤ back := by nlinarith
  have h3 : (2 : ℚ) ^ (-1075 : ℤ) ≤ back / 2 ^ 53 := by
    rw [le_div_iff₀ (by positivity)]
    refine le_trans ?_ h0
    rw [← zpow_natCast, ← two_zpow_add]
    exact two_zpow_le (by norm_num)
  have h4 : back * ((k : ℚ) / 2 ^ 53) / 2 ^ 53 ≤ back / 2 ^ 53 := by gcongr
  calc _ ≤ _ := h
    _ ≤ back / 2 ^ 53 + back / 2 ^ 53 := add_le_add h4 h3
    _ = 2 * back / 2 ^ 53 := by ring

/-- A set of draws that contains those up to `X - 2`, and none above `X + 2`. -/
theorem card_near (M : ℕ) (P : ℕ → Prop) [DecidablePred P] (X : ℚ) (hX0 : 0 ≤ X) (hXM : X ≤ M) (h1 : ∀ k, k < M → (k : ℚ) ≤ X - 2 → P k)
    (h2 : ∀ k, k < M → P k → (k : ℚ) ≤ X + 2) : |(((Finset.range M).filter P).card : ℚ) - X| ≤ 3 := by
  rw [abs_le]
  constructor
  · by_cases hX : X ≤ 2
    · have : (0 : ℚ) ≤ ((Finset.range M).filter P).card := by positivity
      linarith
    · rw [not_le] at hX
      have hsub : Finset.range ⌈X - 2⌉₊ ⊆ (Finset.range M).filter P := by
        intro k hk
        rw [Finset.mem_range, Nat.lt_ceil] at hk
        have hkM : k < M := by
          have : (k : ℚ) < M := by linarith
          exact_mod_cast this
        exact Finset.mem_filter.2 ⟨Finset.mem_range.2 hkM, h1 k hkM hk.le⟩
      have := Finset.card_le_card hsub
      rw [Finset.card_range] at this
      have h3 : X - 2 ≤ (⌈X - 2⌉₊ : ℚ) := Nat.le_ceil _
      have h4 : ((⌈X - 2⌉₊ : ℕ) : ℚ) ≤ ((Finset.range M).filter P).card := by exact_mod_cast this
      linarith
  · have hsub : (Finset.range M).filter P ⊆ Finset.range (⌊X + 2⌋₊ + 1) := by
      intro k hk
      obtain ⟨hk1, hk2⟩ := Finset.mem_filter.1 hk
      rw [Finset.mem_range] at hk1 ⊢
      exact Nat.lt_succ_of_le (Nat.le_floor (h2 k hk1 hk2))
    have := Finset.card_le_card hsub
    rw [Finset.card_range] at this
    have h3 : (⌊X + 2⌋₊ : ℚ) ≤ X + 2 := Nat.floor_le (by linarith)
    have h4 : (((Finset.range M).filter P).card : ℚ) ≤ ((⌊X + 2⌋₊ + 1 : ℕ) : ℚ) := by exact_mod_cast this
    push_cast at h4
    linarith

/-- The number of draws whose threshold is at most `c`. -/
theorem card_thr {back c : ℚ} (h0 : 2 ^ (-49 : ℤ) ≤ back) (hc0 : 0 ≤ c) (hc : c ≤ back) :
    |(((Finset.range (2 ^ 53)).filter (fun k => thrQ back k ≤ c)).card : ℚ) - 2 ^ 53 * (c / back)| ≤ 3 := by
  have hb : 0 < back := lt_of_lt_of_le (two_zpow_pos _) h0
  refine card_near (2 ^ 53) _ _ (by positivity) ?_ ?_ ?_
  · push_cast
    have : c / back ≤ 1 := (div_le_one hb).2 hc
    nlinarith [show (0 : ℚ) < 2 ^ 53 by positivity]
  · intro k hk h
    have he := (abs_le.1 (thrQ_err h0 hk)).2
    have : back * ((k : ℚ) / 2 ^ 53) ≤ c - 2 * back / 2 ^ 53 := by
      have e : c - 2 * back / 2 ^ 53 = back * ((2 ^ 53 * (c / back) - 2) / 2 ^ 53) := by field_simp
      rw [e]
      gcongr
    linarith
  · intro k hk h
    have he := (abs_le.1 (thrQ_err h0 hk)).1
    have h3 : back * ((k : ℚ) / 2 ^ 53) ≤ c + 2 * back / 2 ^ 53 := by linarith
    have e : c + 2 * back / 2 ^ 53 = back * ((2 ^ 53 * (c / back) + 2) / 2 ^ 53) := by field_simp
    rw [e] at h3
    have h4 := le_of_mul_le_mul_left h3 hb
    exact (div_le_div_iff_of_pos_right (by positivity)).1 h4

/-! ## Shares -/

theorem preQ_sum_err {ts : List ℚ} (h0 : ∀ t ∈ ts, 0 ≤ t) {i : ℕ} (hi : i ≤ ts.length) :
    |preQ ts i - (ts.take i).sum| ≤ i * (preQ ts ts.length / 2 ^ 53 + 2 ^ (-1075 : ℤ)) := by
  induction i with
  | zero => simp [preQ_zero]
  | succ i ih =>
    have hlt : i < ts.length := hi
    have hs := preQ_succ (List.getElem?_eq_getElem hlt)
    have he := (roundQ_err (preQ ts i + ts[i])).2
    rw [← hs, abs_of_nonneg (preQ_nonneg h0 hi)] at he
    have hm : preQ ts (i + 1) / 2 ^ 53 ≤ preQ ts ts.length / 2 ^ 53 := by
      gcongr
      exact preQ_mono h0 hi le_rfl
    have := ih (by omega)
    have e : (ts.take (i + 1)).sum = (ts.take i).sum + ts[i] := by
      rw [List.take_add_one, List.getElem?_eq_getElem hlt, Option.toList_some, List.sum_append, List.sum_singleton]
    rw [e]
    push_cast
    rw [abs_le] at *
    constructor <;> nlinarith [this.1, this.2, he.1, he.2]

theorem sum_close {c e : ℚ} {ts ws : List ℚ} (h : List.Forall₂ (fun t w => |t - c * w| ≤ c * w / 2 ^ 53 + e) ts ws) :
    |ts.sum - c * ws.sum| ≤ c * ws.sum / 2 ^ 53 + ts.length * e := by
  induction h with
  | nil => simp
  | @cons t w ts ws h _ ih =>
    simp only [List.sum_cons, List.length_cons]
    push_cast
    rw [abs_le] at *
    constructor <;> nlinarith [h.1, h.2, ih.1, ih.2]

/-- The step of the running sum for a candidate, relative to the last sum, is near its part of the weights. -/
theorem step_share {n u δ B c W C0 C1 t w S : ℚ} (hn : 1 ≤ n) (hu : 0 < u) (hnu : n * u ≤ 1 / 64) (hδ0 : 0 ≤ δ) (hδ : n * δ ≤ u / 8) (hB : 0 < B) (hc : 0 < c) (hW : 0 < W)
    (hw0 : 0 ≤ w) (hw : w ≤ W) (h1 : |t - c * w| ≤ c * w * u + δ * B) (h2 : |C1 - (C0 + t)| ≤ B * u + δ * B) (h3 : |B - S| ≤ n * (B * u + δ * B))
    (h4 : |S - c * W| ≤ c * W * u + n * (δ * B)) : |(C1 - C0) / B - w / W| ≤ (n + 6) * u := by
  set r := c * W / B with hr
  set s := w / W with hs
  have hs0 : 0 ≤ s := by positivity
  have hs1 : s ≤ 1 := (div_le_one hW).2 hw
  have hr0 : 0 < r := by positivity
  have ecW : c * W = r * B := by rw [hr]; field_simp
  have ecw : c * w = r * s * B := by rw [hr, hs]; field_simp
  rw [ecw] at h1
  rw [ecW] at h4
  have hu1 : u ≤ 1 / 64 := by nlinarith
  have hδ1 : δ ≤ n * δ := by nlinarith
  -- divide everything by `B`
  have k1 : |t / B - r * s| ≤ r * s * u + δ := by
    have e : t / B - r * s = (t - r * s * B) / B := by field_simp
    rw [e, abs_div, abs_of_pos hB, div_le_iff₀ hB]
    nlinarith
  have k2 : |(C1 - C0) / B - t / B| ≤ u + δ := by
    have e : (C1 - C0) / B - t / B = (C1 - (C0 + t)) / B := by field_simp; ring
    rw [e, abs_div, abs_of_pos hB, div_le_iff₀ hB]
    nlinarith
  have k3 : |1 - S / B| ≤ n * (u + δ) := by
    have e : 1 - S / B = (B - S) / B := by field_simp
    rw [e, abs_div, abs_of_pos hB, div_le_iff₀ hB]
    nlinarith
  have k4 : |S / B - r| ≤ r * u + n * δ := by
    have e : S / B - r = (S - r * B) / B := by field_simp
    rw [e, abs_div, abs_of_pos hB, div_le_iff₀ hB]
    nlinarith
  rw [abs_le] at k1 k2 k3 k4
  have hr2 : r ≤ 2 := by
    have : r * (1 - u) ≤ 1 + n * (u + δ) + n * δ := by linarith [k3.1, k4.1]
    have h5 : n * (u + δ) + n * δ ≤ 1 / 2 := by linarith
    nlinarith
  have hru : r * u ≤ 2 * u := mul_le_mul_of_nonneg_right hr2 hu.le
  have k5 : |r - 1| ≤ n * u + 2 * (n * δ) + 2 * u := by
    rw [abs_le]
    constructor <;> linarith [k3.1, k3.2, k4.1, k4.2]
  rw [abs_le] at k5 ⊢
  have hrs : r * s * u ≤ 2 * u := by
    have : r * s ≤ 2 * 1 := mul_le_mul hr2 hs1 hs0 (by norm_num)
    exact mul_le_mul_of_nonneg_right (by linarith) hu.le
  have k6 : |r * s - s| ≤ n * u + 2 * (n * δ) + 2 * u := by
    have e : r * s - s = (r - 1) * s := by ring
    rw [e, abs_mul, abs_of_nonneg hs0]
    calc |r - 1| * s ≤ |r - 1| * 1 := by gcongr
      _ ≤ _ := by rw [mul_one]; exact abs_le.2 k5
  rw [abs_le] at k6
  constructor <;> linarith [k1.1, k1.2, k2.1, k2.2, k6.1, k6.2]

theorem forall₂_get {α β : Type} {R : α → β → Prop} {l : List α} {m : List β} (h : List.Forall₂ R l m) {i : ℕ} {b : β} (hi : m[i]? = some b) :
    ∃ a, l[i]? = some a ∧ R a b := by
  induction h generalizing i with
  | nil => simp at hi
  | @cons x y xs ys hxy _ ih =>
    cases i with
    | zero => simp at hi; subst hi; exact ⟨x, by simp, hxy⟩
    | succ i => simp at hi; obtain ⟨a, h1, h2⟩ := ih hi; exact ⟨a, by simpa using h1, h2⟩

theorem le_sum_of_mem {ws : List ℚ} (h : ∀ w ∈ ws, 0 ≤ w) {w : ℚ} (hw : w ∈ ws) : w ≤ ws.sum := by
  induction ws with
  | nil => simp at hw
  | cons x xs ih =>
    rw [List.sum_cons]
    have hx := h x (by simp)
    have hs : 0 ≤ xs.sum := List.sum_nonneg (fun y hy => h y (by simp [hy]))
    rcases List.mem_cons.1 hw with rfl | hw
    · linarith
    · linarith [ih (fun y hy => h y (by simp [hy])) hw]

/-- The number of draws that select the candidate `i`. -/
theorem card_select (fused : Bool) (ts : List ℚ) (h0 : ∀ t ∈ ts, 0 ≤ t) (h8 : ∀ t ∈ ts, t ≤ 8) (hn : ts.length ≤ 2 ^ 50) (hB : 2 ^ (-49 : ℤ) ≤ preQ ts ts.length)
    {i : ℕ} (hi : i < ts.length) :
    |(((Finset.range (2 ^ 53)).filter (fun k => sampleCdfD fused ((List.range ts.length).map (fun i => Dbl.fin (preQ ts (i + 1)))) k = some i)).card : ℚ) -
      2 ^ 53 * ((preQ ts (i + 1) - preQ ts i) / preQ ts ts.length)| ≤ 6 := by
  have hne : ts ≠ [] := by rintro rfl; simp at hi
  set B := preQ ts ts.length with hBd
  set sel := sampleCdfD fused ((List.range ts.length).map (fun i => Dbl.fin (preQ ts (i + 1)))) with hsel
  have key : ∀ k, k < 2 ^ 53 → ∃ i, sel k = some i ∧ i < ts.length ∧ ∀ j, j < ts.length → (i ≤ j ↔ thrQ B k ≤ preQ ts (j + 1)) :=
    fun k hk => sampleCdfD_iff fused ts hne h0 h8 hn hk
  have c1 := card_thr hB (preQ_nonneg h0 hi) (preQ_mono h0 hi le_rfl)
  cases i with
  | zero =>
    have e : (Finset.range (2 ^ 53)).filter (fun k => sel k = some 0) = (Finset.range (2 ^ 53)).filter (fun k => thrQ B k ≤ preQ ts (0 + 1)) := by
      apply Finset.filter_congr
      intro k hk
      obtain ⟨i0, h1, h2, h3⟩ := key k (Finset.mem_range.1 hk)
      rw [h1, ← h3 0 hi, Option.some_inj]
      omega
    rw [e, preQ_zero, sub_zero]
    exact c1.trans (by norm_num)
  | succ i =>
    have c2 := card_thr hB (preQ_nonneg h0 (i := i + 1) (by omega)) (preQ_mono h0 (i := i + 1) (by omega) le_rfl)
    have e : (Finset.range (2 ^ 53)).filter (fun k => sel k = some (i + 1)) =
        (Finset.range (2 ^ 53)).filter (fun k => thrQ B k ≤ preQ ts (i + 1 + 1)) \ (Finset.range (2 ^ 53)).filter (fun k => thrQ B k ≤ preQ ts (i + 1)) := by
      ext k
      simp only [Finset.mem_sdiff, Finset.mem_filter, not_and]
      constructor
      · rintro ⟨hk, hs⟩
        obtain ⟨i0, h1, h2, h3⟩ := key k (Finset.mem_range.1 hk)
        rw [h1, Option.some_inj] at hs
        subst hs
        exact ⟨⟨hk, (h3 _ hi).1 le_rfl⟩, fun _ h => absurd ((h3 i (by omega)).2 h) (by omega)⟩
      · rintro ⟨⟨hk, h4⟩, h5⟩
        obtain ⟨i0, h1, h2, h3⟩ := key k (Finset.mem_range.1 hk)
        have a := (h3 _ hi).2 h4
        have b : ¬ i0 ≤ i := fun h => h5 hk ((h3 i (by omega)).1 h)
        exact ⟨hk, by rw [h1]; congr 1; omega⟩
    have hsub : (Finset.range (2 ^ 53)).filter (fun k => thrQ B k ≤ preQ ts (i + 1)) ⊆ (Finset.range (2 ^ 53)).filter (fun k => thrQ B k ≤ preQ ts (i + 1 + 1)) := by
      intro k hk
      obtain ⟨a, b⟩ := Finset.mem_filter.1 hk
      exact Finset.mem_filter.2 ⟨a, b.trans (preQ_step h0 hi)⟩
    have hcard := Finset.card_sdiff_add_card_eq_card hsub
    rw [e]
    generalize hA : (Finset.range (2 ^ 53)).filter (fun k => thrQ B k ≤ preQ ts (i + 1 + 1)) = A at *
    generalize hD : (Finset.range (2 ^ 53)).filter (fun k => thrQ B k ≤ preQ ts (i + 1)) = D at *
    have hq : ((A \ D).card : ℚ) + (D.card : ℚ) = (A.card : ℚ) := by exact_mod_cast hcard
    rw [sub_div]
    rw [abs_le] at *
    constructor <;> nlinarith [c1.1, c1.2, c2.1, c2.2]

/-- Sampling with the running sums of terms that are nearly proportional to the weights. -/
theorem selects_of_terms (fused : Bool) (ts ws : List ℚ) (c : ℚ) (hc : 0 < c) (hn : ts.length < 2 ^ 46) (h0 : ∀ t ∈ ts, 0 ≤ t) (h8 : ∀ t ∈ ts, t ≤ 8) (hb : ∀ t ∈ ts, IsBinary53 t)
    (hw0 : ∀ w ∈ ws, 0 ≤ w) (hW : 0 < ws.sum) (hclose : List.Forall₂ (fun t w => |t - c * w| ≤ c * w / 2 ^ 53 + 2 ^ (-1075 : ℤ)) ts ws)
    (hzero : List.Forall₂ (fun t w => w = 0 → t = 0) ts ws) (hbig : ∃ t ∈ ts, 2 ^ (-49 : ℤ) ≤ t) (sel : ℕ → Option ℕ)
    (hsel : ∀ k, sel k = sampleCdfD fused (inclusiveScanD (ts.map .fin)) k) :
    (∀ k, k < 2 ^ 53 → ∃ i, sel k = some i ∧ i < ws.length) ∧
    (∀ (i : ℕ) (w : ℚ), ws[i]? = some w → |selectionShare sel i - w / ws.sum| ≤ (ws.length + 12) / 2 ^ 53) ∧
    (∀ (i : ℕ), ws[i]? = some 0 → ∀ k, 0 < k → k < 2 ^ 53 → sel k ≠ some i) := by
  have hlen : ts.length = ws.length := hclose.length_eq
  obtain ⟨tb, htb, hbig⟩ := hbig
  have hne : ts ≠ [] := List.ne_nil_of_mem htb
  have hscan := inclusiveScanD_eq ts h0 h8 hb (by omega)
  have hB : 2 ^ (-49 : ℤ) ≤ preQ ts ts.length := by
    obtain ⟨j, hj, rfl⟩ := List.getElem_of_mem htb
    exact hbig.trans ((term_le_preQ h0 hb hj).trans (preQ_mono h0 hj le_rfl))
  have hB0 : 0 < preQ ts ts.length := lt_of_lt_of_le (two_zpow_pos _) hB
  have hfun : sel = fun k => sampleCdfD fused ((List.range ts.length).map (fun i => Dbl.fin (preQ ts (i + 1)))) k := by
    funext k; rw [hsel, hscan]
  subst hfun
  refine ⟨?_, ?_, ?_⟩
  · intro k hk
    obtain ⟨i, h1, h2, _⟩ := sampleCdfD_iff fused ts hne h0 h8 (by omega) hk
    exact ⟨i, h1, by omega⟩
  · intro i w hi
    have hil : i < ts.length := by rw [hlen]; exact (List.getElem?_eq_some_iff.1 hi).1
    obtain ⟨t, ht, hcl⟩ := forall₂_get hclose hi
    have hcard := card_select fused ts h0 h8 (by omega) hB hil
    have hS := preQ_sum_err h0 (le_refl ts.length)
    rw [List.take_length] at hS
    have hT := sum_close hclose
    have hst : |preQ ts (i + 1) - (preQ ts i + t)| ≤ preQ ts ts.length / 2 ^ 53 + 2 ^ (-1075 : ℤ) := by
      rw [preQ_succ ht]
      have he := (roundQ_err (preQ ts i + t)).2
      rw [← preQ_succ ht] at he ⊢
      rw [abs_of_nonneg (preQ_nonneg h0 hil)] at he
      refine he.trans ?_
      gcongr
      exact preQ_mono h0 hil le_rfl
    set B := preQ ts ts.length with hBdef
    have hwm : w ∈ ws := List.mem_of_getElem? hi
    have hδB : (2 : ℚ) ^ (-1075 : ℤ) / B * B = 2 ^ (-1075 : ℤ) := div_mul_cancel₀ _ hB0.ne'
    have hnq : (ts.length : ℚ) ≤ 2 ^ 46 := by exact_mod_cast hn.le
    have hn1 : (1 : ℚ) ≤ ts.length := by exact_mod_cast List.length_pos_iff.2 hne
    have hδ : (2 : ℚ) ^ (-1075 : ℤ) / B ≤ 2 ^ (-1026 : ℤ) := by
      rw [div_le_iff₀ hB0]
      calc (2 : ℚ) ^ (-1075 : ℤ) = 2 ^ (-1026 : ℤ) * 2 ^ (-49 : ℤ) := by rw [← two_zpow_add]; norm_num
        _ ≤ _ := by gcongr
    have hnδ : (ts.length : ℚ) * (2 ^ (-1075 : ℤ) / B) ≤ 1 / 2 ^ 53 / 8 := by
      calc (ts.length : ℚ) * (2 ^ (-1075 : ℤ) / B) ≤ 2 ^ 46 * 2 ^ (-1026 : ℤ) := by gcongr
        _ = 2 ^ (-980 : ℤ) := by rw [← zpow_natCast, ← two_zpow_add]; norm_num
        _ ≤ 2 ^ (-56 : ℤ) := two_zpow_le (by norm_num)
        _ = 1 / 2 ^ 53 / 8 := by norm_num
    have hstep := step_share (n := ts.length) (u := 1 / 2 ^ 53) (δ := 2 ^ (-1075 : ℤ) / B) (B := B) (c := c) (W := ws.sum) (C0 := preQ ts i) (C1 := preQ ts (i + 1))
      (t := t) (w := w) (S := ts.sum) hn1 (by positivity) (by
        rw [mul_one_div, div_le_iff₀ (by positivity)]; linarith) (by positivity) hnδ hB0 hc hW (hw0 w hwm) (le_sum_of_mem hw0 hwm)
      (by rw [hδB, mul_one_div]; exact hcl) (by rw [hδB, mul_one_div]; exact hst) (by rw [hδB, mul_one_div]; exact hS) (by rw [hδB, mul_one_div]; exact hT)
    unfold selectionShare
    rw [← hlen]
    generalize ((Finset.range (2 ^ 53)).filter (fun k => sampleCdfD fused ((List.range ts.length).map (fun i => Dbl.fin (preQ ts (i + 1)))) k = some i)).card = m at *
    have e1 : |(m : ℚ) / 2 ^ 53 - (preQ ts (i + 1) - preQ ts i) / B| ≤ 6 / 2 ^ 53 := by
      have e : (m : ℚ) / 2 ^ 53 - (preQ ts (i + 1) - preQ ts i) / B = ((m : ℚ) - 2 ^ 53 * ((preQ ts (i + 1) - preQ ts i) / B)) / 2 ^ 53 := by field_simp
      rw [e, abs_div, abs_of_pos (by positivity : (0 : ℚ) < 2 ^ 53)]
      gcongr
    have e2 : ((ts.length : ℚ) + 12) / 2 ^ 53 = 6 / 2 ^ 53 + (ts.length + 6) * (1 / 2 ^ 53) := by ring
    rw [e2]
    calc _ = |((m : ℚ) / 2 ^ 53 - (preQ ts (i + 1) - preQ ts i) / B) + ((preQ ts (i + 1) - preQ ts i) / B - w / ws.sum)| := by congr 1; ring
      _ ≤ _ := (abs_add_le _ _).trans (add_le_add e1 hstep)
  · intro i hi k hk0 hk hs
    have hil : i < ts.length := by rw [hlen]; exact (List.getElem?_eq_some_iff.1 hi).1
    obtain ⟨t, ht, hz⟩ := forall₂_get hzero hi
    obtain rfl := hz rfl
    obtain ⟨i0, h1, h2, h3⟩ := sampleCdfD_iff fused ts hne h0 h8 (by omega) hk
    have hs' : sampleCdfD fused ((List.range ts.length).map (fun i => Dbl.fin (preQ ts (i + 1)))) k = some i := hs
    rw [h1, Option.some_inj] at hs'
    subst hs'
    have e : preQ ts (i0 + 1) = preQ ts i0 := by
      rw [preQ_succ ht, add_zero]; exact roundQ_of_binary53 (preQ_binary53 ts i0 hil.le)
    have hle := (h3 i0 hil).1 le_rfl
    rw [e] at hle
    cases i0 with
    | zero =>
      rw [preQ_zero] at hle
      have hk1 : (1 : ℚ) ≤ k := by exact_mod_cast hk0
      have hx : (2 : ℚ) ^ (-102 : ℤ) ≤ preQ ts ts.length * ((k : ℚ) / 2 ^ 53) := by
        calc (2 : ℚ) ^ (-102 : ℤ) = 2 ^ (-49 : ℤ) * (1 / 2 ^ 53) := by norm_num
          _ ≤ _ := by gcongr
      have := half_le_roundQ ((two_zpow_le (by norm_num : (-1074 : ℤ) ≤ -102)).trans hx)
      have hp := two_zpow_pos (-102)
      unfold thrQ at hle
      linarith
    | succ j => exact absurd ((h3 j (by omega)).2 hle) (by omega)

end Gapp.Model
