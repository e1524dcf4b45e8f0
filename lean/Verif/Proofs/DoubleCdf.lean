import Verif.Proofs.DoubleSelect
/-!
# The cumulative distribution function of the weights
-/

namespace Gapp.Model
open Gapp.Spec Gapp.Props

theorem fin_lt_fin {a b : ℚ} : (Dbl.fin a < Dbl.fin b) ↔ a < b := by
  show decide (a < b) = true ↔ _
  exact decide_eq_true_iff

theorem maxLoop_fin (l : List ℚ) : ∀ (e : ℕ) (v : ℚ) (f : ℕ), maxLoop e (Dbl.fin v) f (l.map .fin) = maxLoop e v f l := by
  induction l with
  | nil => intros; rfl
  | cons x xs ih =>
    intro e v f
    simp only [List.map_cons, maxLoop, fin_lt_fin, ih]

theorem maxElement_fin (l : List ℚ) : maxElement (l.map Dbl.fin) = maxElement l := by
  cases l with
  | nil => rfl
  | cons x xs => exact maxLoop_fin xs 0 x 1

theorem minLoop_fin (l : List ℚ) : ∀ (e : ℕ) (v : ℚ) (f : ℕ), minLoop e (Dbl.fin v) f (l.map .fin) = minLoop e v f l := by
  induction l with
  | nil => intros; rfl
  | cons x xs ih =>
    intro e v f
    simp only [List.map_cons, minLoop, fin_lt_fin, ih]

theorem minElement_fin (l : List ℚ) : minElement (l.map Dbl.fin) = minElement l := by
  cases l with
  | nil => rfl
  | cons x xs => exact minLoop_fin xs 0 x 1

/-- The largest weight. -/
theorem maxElement_val (l : List ℚ) (h : l ≠ []) : ∃ M, (l.map Dbl.fin)[maxElement (l.map Dbl.fin)]? = some (.fin M) ∧ M ∈ l ∧ ∀ x ∈ l, x ≤ M := by
  obtain ⟨M, h1, h2, _⟩ := C48_max_element l h
  refine ⟨M, ?_, List.mem_of_getElem? h1, fun x hx => not_lt.1 (h2 x hx)⟩
  rw [maxElement_fin, List.getElem?_map, h1]; rfl

/-- The smallest fitness. -/
theorem minElement_val (l : List ℚ) (h : l ≠ []) : ∃ M, (l.map Dbl.fin)[minElement (l.map Dbl.fin)]? = some (.fin M) ∧ M ∈ l ∧ ∀ x ∈ l, M ≤ x := by
  obtain ⟨M, h1, h2, _⟩ := C48_min_element l h
  refine ⟨M, ?_, List.mem_of_getElem? h1, fun x hx => not_lt.1 (h2 x hx)⟩
  rw [minElement_fin, List.getElem?_map, h1]; rfl

/-- No number is larger than `std::numeric_limits<double>::max()`. -/
theorem le_large {x : ℚ} (h : IsDouble x) : x ≤ 2 ^ 1024 - 2 ^ 971 := by
  obtain ⟨⟨m, e, hm, he, rfl⟩, hlt⟩ := h
  have hlt := (abs_lt.1 hlt).2
  have e1 : (2 : ℚ) ^ 1024 = 2 ^ 53 * 2 ^ (971 : ℤ) := by
    rw [two_pow_1024, ← zpow_natCast, ← two_zpow_add]; rfl
  have e2 : (2 : ℚ) ^ 971 = 2 ^ (971 : ℤ) := (zpow_natCast (2 : ℚ) 971).symm
  rw [e1] at hlt ⊢
  rw [e2]
  have hp := two_zpow_pos 971
  have hm' : (m : ℚ) ≤ 2 ^ 53 := by exact_mod_cast (abs_le.1 hm).2
  rcases lt_or_ge e 971 with hc | hc
  · have h1 : (2 : ℚ) ^ e ≤ 2 ^ (970 : ℤ) := two_zpow_le (by omega)
    have h2 : (2 : ℚ) ^ (971 : ℤ) = 2 ^ (970 : ℤ) * 2 := by rw [show (971 : ℤ) = 970 + 1 by norm_num, two_zpow_add, zpow_one]
    have h3 := two_zpow_pos e
    calc (m : ℚ) * 2 ^ e ≤ 2 ^ 53 * 2 ^ e := by gcongr
      _ ≤ 2 ^ 53 * 2 ^ (970 : ℤ) := by gcongr
      _ ≤ _ := by
        rw [h2]
        have h4 := two_zpow_pos 970
        generalize (2 : ℚ) ^ (970 : ℤ) = c at *
        clear e1 e2 hlt hp h2
        linarith
  · obtain ⟨d, rfl⟩ : ∃ d : ℕ, e = d + 971 := ⟨(e - 971).toNat, by omega⟩
    rw [two_zpow_add, ← mul_assoc] at hlt ⊢
    have h1 := lt_of_mul_lt_mul_right hlt hp.le
    have h2 : m * 2 ^ d < 2 ^ 53 := by
      rw [zpow_natCast] at h1
      exact_mod_cast h1
    have h3 : ((m * 2 ^ d : ℤ) : ℚ) ≤ 2 ^ 53 - 1 := by
      have : m * 2 ^ d ≤ 2 ^ 53 - 1 := by omega
      calc ((m * 2 ^ d : ℤ) : ℚ) ≤ ((2 ^ 53 - 1 : ℤ) : ℚ) := by exact_mod_cast this
        _ = _ := by norm_num
    push_cast at h3
    rw [zpow_natCast]
    calc (m : ℚ) * 2 ^ d * 2 ^ (971 : ℤ) ≤ (2 ^ 53 - 1) * 2 ^ (971 : ℤ) := by gcongr
      _ = _ := by ring

theorem large_isDouble : IsDouble (2 ^ 1024 - 2 ^ 971) := by
  refine ⟨⟨2 ^ 53 - 1, 971, by norm_num, by norm_num, ?_⟩, ?_⟩
  · have e1 : (2 : ℚ) ^ 1024 = 2 ^ 53 * 2 ^ (971 : ℤ) := by
      rw [two_pow_1024, ← zpow_natCast, ← two_zpow_add]; rfl
    have e2 : (2 : ℚ) ^ 971 = 2 ^ (971 : ℤ) := (zpow_natCast (2 : ℚ) 971).symm
    rw [e1, e2]; push_cast; ring
  · have h1 : (2 : ℚ) ^ 1024 = 2 ^ 53 * 2 ^ 971 := by rw [← pow_add]
    rw [h1]
    have hp : (0 : ℚ) < 2 ^ 971 := by positivity
    generalize (2 : ℚ) ^ 971 = c at *
    clear h1
    rw [abs_of_nonneg (by linarith)]
    linarith

theorem roundD_bounded {x a b : ℚ} (ha : IsBinary53 a) (ha' : -2 ^ 1024 < a) (hb : IsBinary53 b) (hb' : b < 2 ^ 1024) (h1 : a ≤ x) (h2 : x ≤ b) :
    roundD x = .fin (roundQ x) ∧ IsDouble (roundQ x) ∧ a ≤ roundQ x ∧ roundQ x ≤ b := by
  have e1 := le_roundQ_of_binary53 h1 ha
  have e2 := roundQ_le_of_binary53 h2 hb
  refine ⟨roundD_fin (lt_of_le_of_lt e2 hb') (lt_of_lt_of_le ha' e1), ⟨roundQ_binary53 x, abs_lt.2 ⟨lt_of_lt_of_le ha' e1, lt_of_le_of_lt e2 hb'⟩⟩, e1, e2⟩

theorem roundD_nonneg_le {x : ℚ} {k : ℤ} (hk1 : -1074 ≤ k) (hk : k ≤ 1023) (h0 : 0 ≤ x) (h : x ≤ 2 ^ k) :
    roundD x = .fin (roundQ x) ∧ IsDouble (roundQ x) ∧ 0 ≤ roundQ x ∧ roundQ x ≤ 2 ^ k :=
  roundD_bounded isBinary53_zero (neg_lt_zero.2 (by positivity)) (isBinary53_zpow hk1) (lt_two_pow_1024 hk le_rfl) h0 h

/-- The reciprocal of a number that is not too small. -/
theorem recip_spec {M : ℚ} (h1 : 2 ^ (-1022 : ℤ) ≤ M) (h2 : M < 2 ^ 1024) :
    ∃ r, Dbl.div (.fin 1) (.fin M) = .fin r ∧ IsDouble r ∧ r ≤ 2 ^ (1022 : ℤ) ∧ 2 ^ (-1024 : ℤ) ≤ r ∧ r * M ≤ 2 ∧ 1 / 2 ≤ r * M := by
  have hM : 0 < M := lt_of_lt_of_le (two_zpow_pos _) h1
  have hu : 1 / M ≤ 2 ^ (1022 : ℤ) := by
    rw [div_le_iff₀ hM]
    calc (1 : ℚ) = 2 ^ (1022 : ℤ) * 2 ^ (-1022 : ℤ) := by rw [← two_zpow_add]; norm_num
      _ ≤ _ := by gcongr
  have hl : 2 ^ (-1024 : ℤ) ≤ 1 / M := by
    rw [le_div_iff₀ hM]
    rw [two_pow_1024] at h2
    calc (2 : ℚ) ^ (-1024 : ℤ) * M ≤ 2 ^ (-1024 : ℤ) * 2 ^ (1024 : ℤ) := by gcongr
      _ = 1 := by rw [← two_zpow_add]; norm_num
  obtain ⟨e1, e2, e3, e4⟩ := roundD_nonneg_le (x := 1 / M) (by norm_num) (by norm_num) (by positivity) hu
  refine ⟨roundQ (1 / M), ?_, e2, e4, le_roundQ_of_binary53 hl (isBinary53_zpow (by norm_num)), ?_, ?_⟩
  · show (if M = 0 then Dbl.nan else roundD (1 / M)) = _
    rw [if_neg hM.ne', e1]
  · have := roundQ_le_double (x := 1 / M) (by positivity)
    calc roundQ (1 / M) * M ≤ 2 * (1 / M) * M := by gcongr
      _ = 2 := by field_simp
  · have := half_le_roundQ ((two_zpow_le (by norm_num : (-1074 : ℤ) ≤ -1024)).trans hl)
    calc (1 : ℚ) / 2 = 1 / M / 2 * M := by field_simp
      _ ≤ _ := by gcongr

theorem div_fin {x y : ℚ} (h : y ≠ 0) : Dbl.div (.fin x) (.fin y) = roundD (x / y) := if_neg h

/-- A weight divided by the largest one. -/
theorem divR_weight (recip : Bool) {w M : ℚ} (h1 : 2 ^ (-1022 : ℤ) ≤ M) (h2 : M < 2 ^ 1024) (hw0 : 0 ≤ w) (hw : w ≤ M) :
    ∃ x, divR recip (.fin w) (.fin M) = .fin x ∧ IsDouble x ∧ 0 ≤ x ∧ x ≤ 2 ∧ (w = M → 1 / 2 ≤ x) ∧ (w = 0 → x = 0) := by
  have hM : 0 < M := lt_of_lt_of_le (two_zpow_pos _) h1
  cases recip
  · have hle : w / M ≤ 2 ^ (1 : ℤ) := ((div_le_one hM).2 hw).trans (by norm_num)
    obtain ⟨e1, e2, e3, e4⟩ := roundD_nonneg_le (x := w / M) (by norm_num) (by norm_num) (by positivity) hle
    refine ⟨roundQ (w / M), ?_, e2, e3, by simpa using e4, ?_, ?_⟩
    · show Dbl.div (.fin w) (.fin M) = _
      rw [div_fin hM.ne', e1]
    · rintro rfl
      rw [div_self hM.ne']
      exact le_roundQ_of_binary53 (by norm_num) (by simpa using isBinary53_zpow (k := -1) (by norm_num))
    · rintro rfl
      rw [zero_div, roundQ_zero]
  · obtain ⟨r, hr, hrd, hru, hrl, hr1, hr2⟩ := recip_spec h1 h2
    have hr0 : 0 < r := lt_of_lt_of_le (two_zpow_pos _) hrl
    have hle : w * r ≤ 2 ^ (1 : ℤ) := by
      rw [zpow_one]
      calc w * r ≤ M * r := by gcongr
        _ ≤ 2 := by linarith
    obtain ⟨e1, e2, e3, e4⟩ := roundD_nonneg_le (x := w * r) (by norm_num) (by norm_num) (by positivity) hle
    refine ⟨roundQ (w * r), ?_, e2, e3, by simpa using e4, ?_, ?_⟩
    · show Dbl.mul (.fin w) (Dbl.div (.fin 1) (.fin M)) = _
      rw [hr]; exact e1
    · rintro rfl
      exact le_roundQ_of_binary53 (by linarith) (by simpa using isBinary53_zpow (k := -1) (by norm_num))
    · rintro rfl
      rw [zero_mul, roundQ_zero]

/-- A sum of weights divided by the largest one: at least 1/2, and at most twice the number of the weights. -/
theorem quotientSum_bounds {recip : Bool} {M : ℚ} (h1 : 2 ^ (-1022 : ℤ) ≤ M) (h2 : M < 2 ^ 1024) {l : List Dbl} {s : Dbl} (h : QuotientSum recip (.fin M) l s)
    (hl : ∀ d ∈ l, ∃ w, d = .fin w ∧ 0 ≤ w ∧ w ≤ M) (hn : l.length ≤ 2 ^ 50) :
    ∃ q, s = .fin q ∧ IsDouble q ∧ 0 ≤ q ∧ q ≤ ((2 * l.length : ℕ) : ℚ) ∧ (Dbl.fin M ∈ l → 1 / 2 ≤ q) ∧ ((∀ d ∈ l, d = .fin 0) → q = 0) := by
  have hM : 0 < M := lt_of_lt_of_le (two_zpow_pos _) h1
  have hd0 : IsDouble 0 := by simpa using isDouble_nat (n := 0) (by norm_num)
  have hbh : IsBinary53 (1 / 2) := by simpa using isBinary53_zpow (k := -1) (by norm_num)
  induction h with
  | zero => exact ⟨0, rfl, hd0, le_rfl, by simp, by simp, fun _ => rfl⟩
  | term x =>
    obtain ⟨w, rfl, hw0, hw⟩ := hl x (List.mem_singleton.2 rfl)
    obtain ⟨y, e1, e2, e3, e4, e5, e6⟩ := divR_weight recip h1 h2 hw0 hw
    refine ⟨y, e1, e2, e3, by simpa using e4, fun hm => e5 ?_, fun hz => e6 ?_⟩
    · have := List.mem_singleton.1 hm; cases this; rfl
    · have := hz _ (List.mem_singleton.2 rfl); cases this; rfl
  | @add l l1 l2 a b _ _ hp ih1 ih2 =>
    have hlen := hp.length_eq
    rw [List.length_append] at hlen
    obtain ⟨x, rfl, hx, x0, xu, xm, xz⟩ := ih1 (fun d hd => hl d (hp.mem_iff.2 (List.mem_append_left _ hd))) (by omega)
    obtain ⟨y, rfl, hy, y0, yu, ym, yz⟩ := ih2 (fun d hd => hl d (hp.mem_iff.2 (List.mem_append_right _ hd))) (by omega)
    have hdn : IsDouble ((2 * l.length : ℕ) : ℚ) := isDouble_nat (by omega)
    have hsum : x + y ≤ ((2 * l.length : ℕ) : ℚ) := by
      rw [hlen]; push_cast at xu yu ⊢; linarith
    obtain ⟨q, hq, hqd, q0, qu⟩ := roundD_between (isDouble_nat (n := 0) (by norm_num)) hdn (x := x + y) (by push_cast; linarith) hsum
    have hqr : q = roundQ (x + y) := (roundD_fin_iff.1 hq).1
    refine ⟨q, hq, hqd, by simpa using q0, qu, ?_, ?_⟩
    · intro hz
      rw [hqr]
      refine le_roundQ_of_binary53 ?_ hbh
      rcases List.mem_append.1 (hp.mem_iff.1 hz) with hz | hz
      · linarith [xm hz]
      · linarith [ym hz]
    · intro hz
      have e1 := xz (fun z h => hz z (hp.mem_iff.2 (List.mem_append_left _ h)))
      have e2 := yz (fun z h => hz z (hp.mem_iff.2 (List.mem_append_right _ h)))
      rw [hqr, e1, e2, add_zero, roundQ_zero]
  | @fused l l1 x a _ _ hp ih =>
    have hlen := hp.length_eq
    rw [List.length_cons] at hlen
    obtain ⟨w, rfl, hw0, hw⟩ := hl x (hp.mem_iff.2 List.mem_cons_self)
    obtain ⟨z, rfl, hz, z0, zu, zm, zz⟩ := ih (fun d hd => hl d (hp.mem_iff.2 (List.mem_cons_of_mem _ hd))) (by omega)
    obtain ⟨r, hr, hrd, hru, hrl, hr1, hr2⟩ := recip_spec h1 h2
    have hr0 : 0 < r := lt_of_lt_of_le (two_zpow_pos _) hrl
    have hwr : w * r ≤ M * r := by gcongr
    have hwr0 : 0 ≤ w * r := by positivity
    rw [hr]
    have hdn : IsDouble ((2 * l.length : ℕ) : ℚ) := isDouble_nat (by omega)
    have hsum : z + w * r ≤ ((2 * l.length : ℕ) : ℚ) := by
      rw [hlen]; push_cast at zu ⊢; linarith
    obtain ⟨q, hq, hqd, q0, qu⟩ := roundD_between (isDouble_nat (n := 0) (by norm_num)) hdn (x := z + w * r) (by push_cast; linarith) hsum
    have hqr : q = roundQ (z + w * r) := (roundD_fin_iff.1 hq).1
    refine ⟨q, hq, hqd, by simpa using q0, qu, ?_, ?_⟩
    · intro hm
      rw [hqr]
      refine le_roundQ_of_binary53 ?_ hbh
      rcases List.mem_cons.1 (hp.mem_iff.1 hm) with hm | hm
      · cases hm; linarith
      · linarith [zm hm]
    · intro h0
      have e1 := zz (fun d h => h0 d (hp.mem_iff.2 (List.mem_cons_of_mem _ h)))
      have e2 := h0 _ (hp.mem_iff.2 List.mem_cons_self)
      cases e2
      rw [hqr, e1, zero_mul, add_zero, roundQ_zero]

/-- The factor `idiv / wmax`. -/
theorem divR_factor (recip : Bool) {d M : ℚ} (h1 : 2 ^ (-1022 : ℤ) ≤ M) (h2 : M < 2 ^ 1024) (hd0 : 2 ^ (-47 : ℤ) ≤ d) (hd : d ≤ 2) :
    ∃ c, divR recip (.fin d) (.fin M) = .fin c ∧ IsDouble c ∧ 0 < c ∧ c * M ≤ 8 ∧ 2 ^ (-49 : ℤ) ≤ c * M := by
  have hM : 0 < M := lt_of_lt_of_le (two_zpow_pos _) h1
  have hdp : 0 < d := lt_of_lt_of_le (two_zpow_pos _) hd0
  have h49 : (2 : ℚ) ^ (-49 : ℤ) = 2 ^ (-47 : ℤ) / 4 := by norm_num
  obtain ⟨r, hr, hrd, hru, hrl, hr1, hr2⟩ := recip_spec h1 h2
  have hr0 : 0 < r := lt_of_lt_of_le (two_zpow_pos _) hrl
  -- the exact value that is rounded
  obtain ⟨y, hy, hyl, hyM, hyM2, hyu⟩ : ∃ y, divR recip (.fin d) (.fin M) = roundD y ∧ 2 ^ (-1074 : ℤ) ≤ y ∧ y * M ≤ 4 ∧ d / 2 ≤ y * M ∧ y ≤ 2 ^ (1023 : ℤ) := by
    have e23 : (2 : ℚ) ^ (1023 : ℤ) = 2 * 2 ^ (1022 : ℤ) := by rw [show (1023 : ℤ) = 1 + 1022 by norm_num, two_zpow_add, zpow_one]
    have e74 : (2 : ℚ) ^ (-1074 : ℤ) ≤ 2 ^ (-47 : ℤ) * 2 ^ (-1024 : ℤ) := by rw [← two_zpow_add]; exact two_zpow_le (by norm_num)
    have hl : 2 ^ (-1024 : ℤ) ≤ 1 / M := by
      rw [le_div_iff₀ hM]
      rw [two_pow_1024] at h2
      calc (2 : ℚ) ^ (-1024 : ℤ) * M ≤ 2 ^ (-1024 : ℤ) * 2 ^ (1024 : ℤ) := by gcongr
        _ = 1 := by rw [← two_zpow_add]; norm_num
    have hu : 1 / M ≤ 2 ^ (1022 : ℤ) := by
      rw [div_le_iff₀ hM]
      calc (1 : ℚ) = 2 ^ (1022 : ℤ) * 2 ^ (-1022 : ℤ) := by rw [← two_zpow_add]; norm_num
        _ ≤ _ := by gcongr
    cases recip
    · refine ⟨d / M, div_fin hM.ne', ?_, ?_, ?_, ?_⟩
      · rw [div_eq_mul_one_div]
        exact e74.trans (mul_le_mul hd0 hl (two_zpow_pos _).le hdp.le)
      · rw [div_mul_cancel₀ _ hM.ne']; linarith
      · rw [div_mul_cancel₀ _ hM.ne']; linarith
      · rw [div_eq_mul_one_div, e23]
        exact mul_le_mul hd hu (by positivity) (by norm_num)
    · refine ⟨d * r, ?_, ?_, ?_, ?_, ?_⟩
      · show Dbl.mul (.fin d) (Dbl.div (.fin 1) (.fin M)) = _
        rw [hr]; rfl
      · exact e74.trans (mul_le_mul hd0 hrl (two_zpow_pos _).le hdp.le)
      · rw [mul_assoc]; nlinarith
      · rw [mul_assoc]; nlinarith
      · rw [e23]
        exact mul_le_mul hd hru hr0.le (by norm_num)
  have hy0 : 0 < y := lt_of_lt_of_le (two_zpow_pos _) hyl
  obtain ⟨e1, e2, e3, e4⟩ := roundD_nonneg_le (x := y) (by norm_num) (by norm_num) hy0.le hyu
  have g1 := roundQ_le_double hy0.le
  have g2 := half_le_roundQ hyl
  refine ⟨roundQ y, by rw [hy, e1], e2, by linarith, ?_, ?_⟩
  · calc roundQ y * M ≤ 2 * y * M := by gcongr
      _ ≤ 8 := by linarith
  · rw [h49]
    calc (2 : ℚ) ^ (-47 : ℤ) / 4 ≤ d / 4 := by gcongr
      _ ≤ y / 2 * M := by linarith
      _ ≤ _ := by gcongr

end Gapp.Model
