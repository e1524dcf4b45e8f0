import Verif.Proofs.DoubleCdf
import Verif.Spec.Selection
import Verif.Props.Selection
/-!
# C29: the selections in binary64 arithmetic
-/

namespace Gapp.Props
open Gapp.Model Gapp.Spec

theorem cdf_cond {ws : List ℚ} (hw : ∀ w ∈ ws, IsDouble w ∧ 0 ≤ w) :
    (ws.map Dbl.fin).all (fun w => Dbl.le (.fin 0) w && Dbl.le w largeD) = true := by
  rw [List.all_eq_true]
  intro d hd
  obtain ⟨w, hm, rfl⟩ := List.mem_map.1 hd
  rw [Bool.and_eq_true]
  exact ⟨decide_eq_true (hw w hm).2, decide_eq_true (le_large (hw w hm).1)⟩

/-- The distribution function, if the weights are not too small. -/
theorem weightsToCdfD_pos (fl : CdfFlags) (sumQ : Dbl → List Dbl → Dbl) (hsum : SumContract sumQ) (ws : List ℚ) (hn : ws.length < 2 ^ 46)
    (hw : ∀ w ∈ ws, IsDouble w ∧ 0 ≤ w) (hbig : ∃ w ∈ ws, 2 ^ (-1022 : ℤ) ≤ w) :
    ∃ c, 0 < c ∧ weightsToCdfD fl sumQ (ws.map .fin) = some (inclusiveScanD ((ws.map (fun w => roundQ (c * w))).map .fin)) ∧
      (∀ w ∈ ws, c * w ≤ 8) ∧ ∃ w ∈ ws, 2 ^ (-49 : ℤ) ≤ c * w := by
  obtain ⟨wb, hwb, hbig⟩ := hbig
  have hne : ws ≠ [] := List.ne_nil_of_mem hwb
  obtain ⟨M, hmax, hM, hMle⟩ := maxElement_val ws hne
  have hM1 : 2 ^ (-1022 : ℤ) ≤ M := hbig.trans (hMle wb hwb)
  have hM2 : M < 2 ^ 1024 := (abs_lt.1 (hw M hM).1.2).2
  have hM0 : 0 < M := lt_of_lt_of_le (two_zpow_pos _) hM1
  have hwmax : Dbl.max smallD (.fin M) = .fin M := by
    show (if decide ((2 : ℚ) ^ (-1022 : ℤ) < M) = true then _ else _) = _
    rcases hM1.eq_or_lt with h | h
    · rw [if_neg (by rw [decide_eq_true_iff, ← h]; exact lt_irrefl _), ← h]; rfl
    · rw [if_pos (decide_eq_true h)]
  -- the sum
  obtain ⟨recip, hq⟩ := hsum (.fin M) (ws.map .fin)
  obtain ⟨S, hS, hSd, hS0, hSu, hSm, _⟩ := quotientSum_bounds hM1 hM2 hq (by
    intro d hd
    obtain ⟨w, hd', rfl⟩ := List.mem_map.1 hd
    exact ⟨w, rfl, (hw w hd').2, hMle w hd'⟩) (by rw [List.length_map]; omega)
  have hSl : 1 / 2 ≤ S := hSm (List.mem_map.2 ⟨M, hM, rfl⟩)
  have hSu' : S ≤ 2 ^ 47 := by
    refine hSu.trans ?_
    have : 2 * (ws.map Dbl.fin).length ≤ 2 ^ 47 := by rw [List.length_map]; omega
    exact_mod_cast this
  have hSp : 0 < S := by linarith
  obtain ⟨e1, e2, e3, e4⟩ := roundD_nonneg_le (x := 1 / S) (k := 1) (by norm_num) (by norm_num) (by positivity) (by
    rw [zpow_one, div_le_iff₀ hSp]; linarith)
  have hd1 : 2 ^ (-47 : ℤ) ≤ roundQ (1 / S) := le_roundQ_of_binary53 (by
    rw [le_div_iff₀ hSp, zpow_neg]
    have : (2 : ℚ) ^ (47 : ℤ) = 2 ^ 47 := rfl
    rw [this, inv_mul_le_iff₀ (by positivity), mul_one]; exact hSu') (isBinary53_zpow (by norm_num))
  have hidiv : Dbl.div (.fin 1) (.fin S) = .fin (roundQ (1 / S)) := by rw [div_fin hSp.ne', e1]
  obtain ⟨c, hc, hcd, hc0, hc8, hc49⟩ := divR_factor fl.recipScan hM1 hM2 hd1 (by simpa using e4)
  have hcw : ∀ w ∈ ws, c * w ≤ 8 := fun w h => le_trans (by gcongr; exact hMle w h) hc8
  refine ⟨c, hc0, ?_, hcw, ⟨M, hM, hc49⟩⟩
  unfold weightsToCdfD
  rw [if_pos (cdf_cond hw), hmax]
  simp only [Option.bind_eq_bind, Option.bind_some, hwmax]
  rw [hS, hidiv]
  show some (inclusiveScanD ((ws.map Dbl.fin).map (fun w => Dbl.mulAdd fl.fused (divR fl.recipScan (.fin (roundQ (1 / S))) (.fin M)) w (.fin 0)))) = _
  rw [hc, List.map_map, List.map_map]
  congr 2
  apply List.map_congr_left
  intro w hwm
  refine mulAdd_zero fl.fused ?_
  have h0 : 0 ≤ c * w := mul_nonneg hc0.le (hw w hwm).2
  obtain ⟨_, g2, _⟩ := roundD_nonneg_le (x := c * w) (k := 3) (by norm_num) (by norm_num) h0 ((hcw w hwm).trans (by norm_num))
  exact g2.2

/-- The distribution function, if all weights are 0. -/
theorem weightsToCdfD_zero (fl : CdfFlags) (sumQ : Dbl → List Dbl → Dbl) (hsum : SumContract sumQ) (ws : List ℚ) (hne : ws ≠ []) (hn : ws.length < 2 ^ 46)
    (hw : ∀ w ∈ ws, w = 0) :
    weightsToCdfD fl sumQ (ws.map .fin) = some (inclusiveScanD ((ws.map (fun _ => roundQ (1 / (ws.length : ℚ)))).map .fin)) := by
  have hd0 : IsDouble 0 := by simpa using isDouble_nat (n := 0) (by norm_num)
  have hlen : 0 < ws.length := List.length_pos_iff.2 hne
  have hnq : (0 : ℚ) < ws.length := by exact_mod_cast hlen
  obtain ⟨M, hmax, hM, _⟩ := maxElement_val ws hne
  obtain rfl := hw M hM
  have hwmax : Dbl.max smallD (.fin 0) = smallD := by
    show (if decide ((2 : ℚ) ^ (-1022 : ℤ) < 0) = true then _ else _) = _
    rw [if_neg (by rw [decide_eq_true_iff, not_lt]; positivity)]
  have h22 : (2 : ℚ) ^ (-1022 : ℤ) < 2 ^ 1024 := lt_two_pow_1024 (k := -1022) (by norm_num) le_rfl
  obtain ⟨recip, hq⟩ := hsum smallD (ws.map .fin)
  obtain ⟨S, hS, _, _, _, _, hSz⟩ := quotientSum_bounds (M := 2 ^ (-1022 : ℤ)) le_rfl h22 hq (by
    intro d hd
    obtain ⟨w, hd', rfl⟩ := List.mem_map.1 hd
    exact ⟨w, rfl, by rw [hw w hd'], by rw [hw w hd']; exact (two_zpow_pos _).le⟩) (by rw [List.length_map]; omega)
  have hS0 : S = 0 := hSz (fun d hd => by obtain ⟨w, hd', rfl⟩ := List.mem_map.1 hd; rw [hw w hd'])
  rw [hS0] at hS
  have hidiv : Dbl.div (.fin 1) (.fin 0) = .nan := by
    show (if (0 : ℚ) = 0 then Dbl.nan else roundD (1 / 0)) = _
    exact if_pos rfl
  have hnd : ofNatD ws.length = .fin ws.length := by
    have hb := isDouble_nat (n := ws.length) (by omega)
    have := roundQ_of_binary53 hb.1
    unfold ofNatD
    rw [roundD_fin (by rw [this]; exact (abs_lt.1 hb.2).2) (by rw [this]; exact (abs_lt.1 hb.2).1), this]
  obtain ⟨e1, e2, e3, e4⟩ := roundD_nonneg_le (x := 1 / (ws.length : ℚ)) (k := 0) (by norm_num) (by norm_num) (by positivity) (by
    rw [zpow_zero, div_le_one hnq]; exact_mod_cast hlen)
  have hcorr : Dbl.div (.fin 1) (.fin (ws.length : ℚ)) = .fin (roundQ (1 / (ws.length : ℚ))) := by rw [div_fin hnq.ne', e1]
  obtain ⟨c, hc, hcd, _⟩ := divR_factor fl.recipScan (d := 1) (M := 2 ^ (-1022 : ℤ)) le_rfl h22 (by norm_num) (by norm_num)
  have hc' : divR fl.recipScan (.fin 1) smallD = .fin c := hc
  unfold weightsToCdfD
  rw [if_pos (cdf_cond (fun w h => by rw [hw w h]; exact ⟨hd0, le_rfl⟩)), hmax]
  simp only [Option.bind_eq_bind, Option.bind_some, hwmax]
  rw [hS, hidiv, List.length_map, hnd]
  show some (inclusiveScanD ((ws.map Dbl.fin).map (fun w => Dbl.mulAdd fl.fused (divR fl.recipScan (.fin 1) smallD) w (Dbl.div (.fin 1) (.fin (ws.length : ℚ)))))) = _
  rw [hc', hcorr, List.map_map, List.map_map]
  congr 2
  apply List.map_congr_left
  intro w hwm
  rw [hw w hwm]
  set h := roundQ (1 / (ws.length : ℚ))
  have hr : roundD h = .fin h := by
    have := roundQ_of_binary53 e2.1
    rw [roundD_fin (by rw [this]; exact (abs_lt.1 e2.2).2) (by rw [this]; exact (abs_lt.1 e2.2).1), this]
  have hz : roundD 0 = .fin 0 := by
    rw [roundD_fin (by rw [roundQ_zero]; positivity) (by rw [roundQ_zero]; exact neg_lt_zero.2 (by positivity)), roundQ_zero]
  show Dbl.mulAdd fl.fused (.fin c) (.fin 0) (.fin h) = _
  cases fl.fused
  · show Dbl.add (.fin h) (roundD (c * 0)) = _
    rw [mul_zero, hz]
    show roundD (h + 0) = _
    rw [add_zero, hr]; rfl
  · show roundD (h + c * 0) = _
    rw [mul_zero, add_zero, hr]; rfl

/-- C29: the weights decide with which probability a candidate is selected, in binary64 arithmetic, whatever the order of the sums, and with or without fused operations and
reciprocals. Every draw selects a candidate of the population, and the error of the probability is at most about as many units of `2^-53` as there are candidates. It is required that
at least one weight is not smaller than the least normal number, or that all are 0. -/
theorem C29_double_weights_partial (fl : CdfFlags) (fused : Bool) (sumQ : Dbl → List Dbl → Dbl) (hsum : SumContract sumQ) (ws : List ℚ) (hne : ws ≠ []) (hn : ws.length < 2 ^ 46)
    (hw : ∀ w ∈ ws, IsDouble w ∧ 0 ≤ w) (hbig : (∃ w ∈ ws, 2 ^ (-1022 : ℤ) ≤ w) ∨ ∀ w ∈ ws, w = 0) :
    SelectsNearlyByWeight ws ((ws.length + 12) / 2 ^ 53) (selectByWeightD fl fused sumQ (ws.map .fin)) := by
  rcases hbig with hbig | hz
  · obtain ⟨c, hc, hcdf, h8, wb, hwb, h49⟩ := weightsToCdfD_pos fl sumQ hsum ws hn hw hbig
    have hsum : 0 < ws.sum := by
      have := le_sum_of_mem (fun w h => (hw w h).2) hwb
      have : 0 < wb := by
        by_contra h
        have h0 : wb = 0 := le_antisymm (not_lt.1 h) (hw wb hwb).2
        rw [h0, mul_zero] at h49
        exact absurd h49 (not_le.2 (two_zpow_pos _))
      linarith
    have h0 : ∀ t ∈ ws.map (fun w => roundQ (c * w)), 0 ≤ t := by
      intro t ht
      obtain ⟨w, hm, rfl⟩ := List.mem_map.1 ht
      exact roundQ_nonneg (mul_nonneg hc.le (hw w hm).2)
    have hle : ∀ t ∈ ws.map (fun w => roundQ (c * w)), t ≤ 8 := by
      intro t ht
      obtain ⟨w, hm, rfl⟩ := List.mem_map.1 ht
      exact roundQ_le_of_binary53 (h8 w hm) (by simpa using isBinary53_nat (n := 8) (by norm_num))
    obtain ⟨r1, r2, r3⟩ := selects_of_terms fused (ws.map (fun w => roundQ (c * w))) ws c hc (by simpa using hn) h0 hle
      (by intro t ht; obtain ⟨w, hm, rfl⟩ := List.mem_map.1 ht; exact roundQ_binary53 _) (fun w h => (hw w h).2) hsum
      (by
        rw [List.forall₂_map_left_iff, List.forall₂_same]
        intro w hm
        have := (roundQ_err (c * w)).1
        rwa [abs_of_nonneg (mul_nonneg hc.le (hw w hm).2)] at this)
      (by
        rw [List.forall₂_map_left_iff, List.forall₂_same]
        intro w _ h
        rw [h, mul_zero, roundQ_zero])
      ⟨_, List.mem_map.2 ⟨wb, hwb, rfl⟩, le_roundQ_of_binary53 h49 (isBinary53_zpow (by norm_num))⟩ (selectByWeightD fl fused sumQ (ws.map .fin))
      (by intro k; unfold selectByWeightD; rw [hcdf]; rfl)
    refine ⟨r1, ?_, fun _ => r3⟩
    intro i w hi
    unfold weightShare
    rw [if_neg hsum.ne']
    exact r2 i w hi
  · have hcdf := weightsToCdfD_zero fl sumQ hsum ws hne hn hz
    have hlen : 0 < ws.length := List.length_pos_iff.2 hne
    have hnq : (0 : ℚ) < ws.length := by exact_mod_cast hlen
    have hsum : ws.sum = 0 := List.sum_eq_zero hz
    have h46 : (2 : ℚ) ^ (-46 : ℤ) ≤ 1 / (ws.length : ℚ) := by
      rw [le_div_iff₀ hnq, zpow_neg]
      have : (2 : ℚ) ^ (46 : ℤ) = 2 ^ 46 := rfl
      rw [this, inv_mul_le_iff₀ (by positivity), mul_one]
      exact_mod_cast hn.le
    have hl : (2 : ℚ) ^ (-46 : ℤ) ≤ roundQ (1 / (ws.length : ℚ)) := le_roundQ_of_binary53 h46 (isBinary53_zpow (by norm_num))
    have hu : roundQ (1 / (ws.length : ℚ)) ≤ 1 := roundQ_le_of_binary53 (by rw [div_le_one hnq]; exact_mod_cast hlen) (by simpa using isBinary53_nat (n := 1) (by norm_num))
    have hb := roundQ_binary53 (1 / (ws.length : ℚ))
    set h := roundQ (1 / (ws.length : ℚ)) with hh
    have hp : 0 < h := lt_of_lt_of_le (two_zpow_pos _) hl
    have hts : ∀ t ∈ ws.map (fun _ => h), t = h := by
      intro t ht
      obtain ⟨w, _, rfl⟩ := List.mem_map.1 ht
      rfl
    have hws1 : ∀ w ∈ ws.map (fun _ => (1 : ℚ)), w = 1 := by
      intro t ht
      obtain ⟨w, _, rfl⟩ := List.mem_map.1 ht
      rfl
    have hs1 : (ws.map (fun _ => (1 : ℚ))).sum = ws.length := by simp
    obtain ⟨w0, hw0⟩ := List.exists_mem_of_ne_nil ws hne
    obtain ⟨r1, r2, r3⟩ := selects_of_terms fused (ws.map (fun _ => h)) (ws.map (fun _ => (1 : ℚ))) h hp (by simpa using hn) (fun t ht => by rw [hts t ht]; exact hp.le)
      (fun t ht => by rw [hts t ht]; linarith) (fun t ht => by rw [hts t ht]; exact hb) (fun w hm => by rw [hws1 w hm]; norm_num) (by rw [hs1]; exact hnq)
      (by
        rw [List.forall₂_map_left_iff, List.forall₂_map_right_iff, List.forall₂_same]
        intro w _
        rw [mul_one, sub_self, abs_zero]
        have := two_zpow_pos (-1075)
        positivity)
      (by
        rw [List.forall₂_map_left_iff, List.forall₂_map_right_iff, List.forall₂_same]
        intro w _ h1
        norm_num at h1)
      ⟨h, List.mem_map.2 ⟨w0, hw0, rfl⟩, (two_zpow_le (by norm_num)).trans hl⟩ (selectByWeightD fl fused sumQ (ws.map .fin))
      (by intro k; unfold selectByWeightD; rw [hcdf]; rfl)
    refine ⟨by simpa using r1, ?_, fun hc => absurd hsum hc⟩
    intro i w hi
    unfold weightShare
    rw [if_pos hsum]
    have := r2 i 1 (by rw [List.getElem?_map, hi]; rfl)
    rwa [hs1, List.length_map] at this

/-! ## Roulette -/

theorem third_eq : Dbl.div (.fin 1) (.fin 3) = .fin (6004799503160661 / 2 ^ 54) := by decide +kernel

theorem twothird_eq : Dbl.neg (Dbl.div (.fin 2) (.fin 3)) = .fin (-(6004799503160661 / 2 ^ 53)) := by decide +kernel

theorem roundD_self {x : ℚ} (h : IsDouble x) : roundD x = .fin x := by
  have e := roundQ_of_binary53 h.1
  rw [roundD_fin (by rw [e]; exact (abs_lt.1 h.2).2) (by rw [e]; exact (abs_lt.1 h.2).1), e]

theorem neg_two_pow_lt_zero : -(2 : ℚ) ^ 1024 < 0 := neg_lt_zero.2 (by positivity)

/-- The offset is at least the scaled absolute value of the lowest fitness. -/
theorem roulette_offset {L : ℚ} (hL : IsDouble L) (h0 : 0 < L) : 6004799503160661 / 2 ^ 54 * L ≤ roundQ (6004799503160661 / 2 ^ 53 * L) := by
  obtain ⟨n, hn⟩ := binary53_multiple hL.1
  have hp := two_zpow_pos (-1074)
  have hn1 : 1 ≤ n := by
    by_contra hc
    have : (n : ℚ) ≤ 0 := by exact_mod_cast (by omega : n ≤ 0)
    rw [hn] at h0
    nlinarith
  rcases hn1.eq_or_lt with h1 | h1
  · rw [← h1, Int.cast_one, one_mul] at hn
    rw [hn]
    decide +kernel
  · have h2 : (2 : ℚ) ≤ n := by exact_mod_cast h1
    have h3 : (2 : ℚ) ^ (-1074 : ℤ) ≤ 6004799503160661 / 2 ^ 53 * L := by
      rw [hn]
      nlinarith
    have := half_le_roundQ h3
    have e : (6004799503160661 / 2 ^ 54 : ℚ) * L = 6004799503160661 / 2 ^ 53 * L / 2 := by ring
    rw [e]; exact this

/-- `large` and the largest scaled fitness and offset. -/
theorem roulette_max : roundQ (6004799503160661 / 2 ^ 53 * (2 ^ 1024 - 2 ^ 971)) + roundQ (6004799503160661 / 2 ^ 54 * (2 ^ 1024 - 2 ^ 971)) ≤ 2 ^ 1024 - 2 ^ 971 ∧
    roundQ (6004799503160661 / 2 ^ 53 * (2 ^ 1024 - 2 ^ 971)) + 6004799503160661 / 2 ^ 54 * (2 ^ 1024 - 2 ^ 971) ≤ 2 ^ 1024 - 2 ^ 971 := by decide +kernel

/-- The weight of a candidate if the lowest fitness is `-L`. -/
def rouletteQ (fused : Bool) (L f : ℚ) : ℚ :=
  if fused then roundQ (roundQ (6004799503160661 / 2 ^ 53 * L) + 6004799503160661 / 2 ^ 54 * f)
  else roundQ (roundQ (6004799503160661 / 2 ^ 53 * L) + roundQ (6004799503160661 / 2 ^ 54 * f))

theorem rouletteQ_mono (fused : Bool) (L : ℚ) {f g : ℚ} (h : f ≤ g) : rouletteQ fused L f ≤ rouletteQ fused L g := by
  have h1 : 6004799503160661 / 2 ^ 54 * f ≤ 6004799503160661 / 2 ^ 54 * g := by gcongr
  cases fused
  · exact roundQ_mono (add_le_add le_rfl (roundQ_mono h1))
  · exact roundQ_mono (add_le_add le_rfl h1)

theorem rouletteQ_spec (fused : Bool) {L f : ℚ} (hL : IsDouble L) (h0 : 0 < L) (hf : IsDouble f) (hfL : -L ≤ f) :
    Dbl.mulAdd fused (.fin (6004799503160661 / 2 ^ 54)) (.fin f) (Dbl.mul (.fin (-(6004799503160661 / 2 ^ 53))) (.fin (-L))) = .fin (rouletteQ fused L f) ∧
    IsDouble (rouletteQ fused L f) ∧ 0 ≤ rouletteQ fused L f := by
  have hLu := le_large hL
  have hfu := le_large hf
  set G : ℚ := 2 ^ 1024 - 2 ^ 971 with hG
  have hGd : IsDouble G := large_isDouble
  have hG0 : 0 < G := lt_of_lt_of_le h0 hLu
  have hGl : G < 2 ^ 1024 := (abs_lt.1 hGd.2).2
  have ho : Dbl.mul (.fin (-(6004799503160661 / 2 ^ 53))) (.fin (-L)) = .fin (roundQ (6004799503160661 / 2 ^ 53 * L)) ∧ 0 ≤ roundQ (6004799503160661 / 2 ^ 53 * L) := by
    obtain ⟨e1, _, e3, _⟩ := roundD_bounded (x := 6004799503160661 / 2 ^ 53 * L) (a := 0) (b := L) isBinary53_zero neg_two_pow_lt_zero hL.1 (lt_of_le_of_lt hLu hGl) (by positivity)
      (by linarith)
    refine ⟨?_, e3⟩
    show roundD (-(6004799503160661 / 2 ^ 53) * -L) = _
    rw [neg_mul_neg, e1]
  rw [ho.1]
  have hof := roulette_offset hL h0
  have hou : roundQ (6004799503160661 / 2 ^ 53 * L) ≤ roundQ (6004799503160661 / 2 ^ 53 * G) := roundQ_mono (by gcongr)
  have hob := roundQ_binary53 (6004799503160661 / 2 ^ 53 * L)
  obtain ⟨hm1, hm2⟩ := roulette_max
  rw [← hG] at hm1 hm2
  generalize roundQ (6004799503160661 / 2 ^ 53 * G) = omax at *
  have hfo : -roundQ (6004799503160661 / 2 ^ 53 * L) ≤ 6004799503160661 / 2 ^ 54 * f := by linarith
  have hfg : 6004799503160661 / 2 ^ 54 * f ≤ 6004799503160661 / 2 ^ 54 * G := by gcongr
  have hro : -roundQ (6004799503160661 / 2 ^ 53 * L) ≤ roundQ (6004799503160661 / 2 ^ 54 * f) := le_roundQ_of_binary53 hfo (isBinary53_neg hob)
  have hrg := roundQ_mono hfg
  unfold rouletteQ
  cases fused
  · simp only [Bool.false_eq_true, if_false]
    set o := roundQ (6004799503160661 / 2 ^ 53 * L)
    obtain ⟨e1, e2, e3, _⟩ := roundD_bounded (x := o + roundQ (6004799503160661 / 2 ^ 54 * f)) (a := 0) (b := G) isBinary53_zero neg_two_pow_lt_zero hGd.1 hGl (by linarith) (by linarith)
    refine ⟨?_, e2, e3⟩
    show Dbl.add (.fin o) (roundD (6004799503160661 / 2 ^ 54 * f)) = _
    obtain ⟨g1, _⟩ := roundD_bounded (x := 6004799503160661 / 2 ^ 54 * f) (a := -L) (b := G) (isBinary53_neg hL.1)
      (neg_lt_neg (lt_of_le_of_lt hLu hGl)) hGd.1 hGl (by linarith)
      (hfg.trans ((le_add_of_nonneg_left (ho.2.trans hou)).trans hm2))
    rw [g1]
    exact e1
  · simp only [if_true]
    set o := roundQ (6004799503160661 / 2 ^ 53 * L)
    obtain ⟨e1, e2, e3, _⟩ := roundD_bounded (x := o + 6004799503160661 / 2 ^ 54 * f) (a := 0) (b := G) isBinary53_zero neg_two_pow_lt_zero hGd.1 hGl (by linarith) (by linarith)
    exact ⟨e1, e2, e3⟩

/-- A weight is not too small if the fitness or the lowest fitness is not. -/
theorem rouletteQ_big (fused : Bool) {L f : ℚ} (h0 : 0 < L) (hL : 2 ^ (-1020 : ℤ) ≤ L ∧ f = -L ∨ 2 ^ (-1020 : ℤ) ≤ f) : 2 ^ (-1022 : ℤ) ≤ rouletteQ fused L f := by
  have e20 : (2 : ℚ) ^ (-1020 : ℤ) = 2 ^ (-1022 : ℤ) * 4 := by
    rw [show (-1020 : ℤ) = -1022 + 2 by norm_num, two_zpow_add]; norm_num
  have e75 : (2 : ℚ) ^ (-1075 : ℤ) ≤ 2 ^ (-1022 : ℤ) / 2 ^ 50 := by
    rw [show (-1022 : ℤ) = -1075 + 53 by norm_num, two_zpow_add, mul_div_assoc]
    have := two_zpow_pos (-1075)
    norm_num
  have hb : IsBinary53 (2 ^ (-1022 : ℤ)) := isBinary53_zpow (by norm_num)
  have hs := two_zpow_pos (-1022)
  have ho0 : 0 ≤ roundQ (6004799503160661 / 2 ^ 53 * L) := roundQ_nonneg (by positivity)
  have key : (2 : ℚ) ^ (-1022 : ℤ) ≤ roundQ (6004799503160661 / 2 ^ 53 * L) + 6004799503160661 / 2 ^ 54 * f ∧
      (2 : ℚ) ^ (-1022 : ℤ) ≤ roundQ (6004799503160661 / 2 ^ 53 * L) + roundQ (6004799503160661 / 2 ^ 54 * f) := by
    rcases hL with ⟨hL, rfl⟩ | hf
    · have a1 := (abs_le.1 (roundQ_err (6004799503160661 / 2 ^ 53 * L)).1).1
      have a2 := (abs_le.1 (roundQ_err (6004799503160661 / 2 ^ 54 * -L)).1).1
      rw [abs_of_nonneg (by positivity)] at a1
      rw [show |(6004799503160661 / 2 ^ 54 : ℚ) * -L| = 6004799503160661 / 2 ^ 54 * L by rw [mul_neg, abs_neg, abs_of_nonneg (by positivity)]] at a2
      rw [e20] at hL
      generalize (2 : ℚ) ^ (-1022 : ℤ) = s at *
      generalize (2 : ℚ) ^ (-1075 : ℤ) = η at *
      constructor <;> linarith
    · rw [e20] at hf
      have h1 : (2 : ℚ) ^ (-1022 : ℤ) ≤ 6004799503160661 / 2 ^ 54 * f := by
        generalize (2 : ℚ) ^ (-1022 : ℤ) = s at *
        linarith
      have h2 := le_roundQ_of_binary53 h1 hb
      exact ⟨by linarith, by linarith⟩
  unfold rouletteQ
  cases fused
  · exact le_roundQ_of_binary53 key.2 hb
  · exact le_roundQ_of_binary53 key.1 hb

/-- C29: roulette selection in binary64 arithmetic. The fitness values are finite, and at least one of them is not tiny, or all are 0. -/
theorem C29_double_roulette_partial (fl : CdfFlags) (fused fusedW : Bool) (sumQ : Dbl → List Dbl → Dbl) (hsum : SumContract sumQ) (fvec : List ℚ) (hne : fvec ≠ [])
    (hn : fvec.length < 2 ^ 46) (hf : ∀ f ∈ fvec, IsDouble f) (hbig : (∃ f ∈ fvec, 2 ^ (-1020 : ℤ) ≤ |f|) ∨ ∀ f ∈ fvec, f = 0) :
    ∃ ws, rouletteWeightsD fusedW (fvec.map .fin) = some (ws.map .fin) ∧ WeightsFollowFitness fvec ws ∧
      SelectsNearlyByWeight ws ((fvec.length + 12) / 2 ^ 53) (rouletteSelectD fl fused fusedW sumQ (fvec.map .fin)) := by
  obtain ⟨low, hmin, hlow, hle⟩ := minElement_val fvec hne
  have hs20 : (2 : ℚ) ^ (-1022 : ℤ) ≤ 2 ^ (-1020 : ℤ) := two_zpow_le (by norm_num)
  rcases le_or_gt 0 low with h0 | h0
  · have e : rouletteWeightsD fusedW (fvec.map .fin) = some (fvec.map .fin) := by
      unfold rouletteWeightsD
      rw [hmin]
      have hm : Dbl.min (.fin 0) (.fin low) = .fin 0 := by
        show (if decide (low < 0) = true then _ else _) = _
        rw [if_neg (by rw [decide_eq_true_iff]; exact not_lt.2 h0)]
      have hl : Dbl.le (.fin 0) (.fin low) = true := decide_eq_true h0
      simp only [Option.bind_eq_bind, Option.bind_some, hm, hl, if_true, twothird_eq]
      have hz : Dbl.mul (.fin (-(6004799503160661 / 2 ^ 53))) (.fin 0) = .fin 0 := by decide +kernel
      rw [hz]
      show some ((fvec.map Dbl.fin).map _) = _
      rw [List.map_map]
      congr 1
      apply List.map_congr_left
      intro f hm
      have := mulAdd_zero fusedW (a := 1) (b := f) (by rw [one_mul, roundQ_of_binary53 (hf f hm).1]; exact (hf f hm).2)
      rw [one_mul, roundQ_of_binary53 (hf f hm).1] at this
      exact this
    refine ⟨fvec, e, ⟨rfl, fun w hw => h0.trans (hle w hw), ?_⟩, ?_⟩
    · intro i j fi fj wi wj h1 h2 h3 h4 hlt
      rw [h1] at h3; rw [h2] at h4
      cases h3; cases h4
      exact hlt.le
    · have := C29_double_weights_partial fl fused sumQ hsum fvec hne hn (fun f hm => ⟨hf f hm, h0.trans (hle f hm)⟩) (by
        rcases hbig with ⟨f, hm, h⟩ | h
        · rw [abs_of_nonneg (h0.trans (hle f hm))] at h
          exact Or.inl ⟨f, hm, hs20.trans h⟩
        · exact Or.inr h)
      have e2 : rouletteSelectD fl fused fusedW sumQ (fvec.map .fin) = selectByWeightD fl fused sumQ (fvec.map .fin) := by
        funext k; unfold rouletteSelectD; rw [e]; rfl
      rw [e2]; exact this
  · set L := -low with hL
    have hLp : 0 < L := by linarith
    have hLd : IsDouble L := ⟨isBinary53_neg (hf low hlow).1, by rw [hL, abs_neg]; exact (hf low hlow).2⟩
    have hspec : ∀ f ∈ fvec, _ := fun f hm => rouletteQ_spec fusedW hLd hLp (hf f hm) (by rw [hL, neg_neg]; exact hle f hm)
    set ws := fvec.map (rouletteQ fusedW L) with hws
    have e : rouletteWeightsD fusedW (fvec.map .fin) = some (ws.map .fin) := by
      unfold rouletteWeightsD
      rw [hmin]
      have hm : Dbl.min (.fin 0) (.fin low) = .fin (-L) := by
        show (if decide (low < 0) = true then _ else _) = _
        rw [if_pos (decide_eq_true h0), hL, neg_neg]
      have hl : Dbl.le (.fin 0) (.fin low) = false := decide_eq_false (not_le.2 h0)
      simp only [Option.bind_eq_bind, Option.bind_some, hm, hl, Bool.false_eq_true, if_false, twothird_eq, third_eq]
      show some ((fvec.map Dbl.fin).map _) = _
      rw [hws, List.map_map, List.map_map]
      congr 1
      apply List.map_congr_left
      intro f hm
      exact (hspec f hm).1
    have hwd : ∀ w ∈ ws, IsDouble w ∧ 0 ≤ w := by
      intro w hw
      obtain ⟨f, hm, rfl⟩ := List.mem_map.1 hw
      exact (hspec f hm).2
    refine ⟨ws, e, ⟨by simp [hws], fun w hw => (hwd w hw).2, ?_⟩, ?_⟩
    · intro i j fi fj wi wj h1 h2 h3 h4 hlt
      rw [hws, List.getElem?_map, h1] at h3
      rw [hws, List.getElem?_map, h2] at h4
      cases h3; cases h4
      exact rouletteQ_mono _ _ hlt.le
    · have := C29_double_weights_partial fl fused sumQ hsum ws (by simpa [hws] using hne) (by simpa [hws] using hn) hwd (by
        rcases hbig with ⟨f, hm, h⟩ | h
        · refine Or.inl ?_
          rcases le_total 0 f with hfp | hfn
          · rw [abs_of_nonneg hfp] at h
            exact ⟨_, List.mem_map.2 ⟨f, hm, rfl⟩, rouletteQ_big _ hLp (Or.inr h)⟩
          · rw [abs_of_nonpos hfn] at h
            exact ⟨_, List.mem_map.2 ⟨low, hlow, rfl⟩, rouletteQ_big _ hLp (Or.inl ⟨by linarith [hle f hm], by rw [hL, neg_neg]⟩)⟩
        · exact absurd (h low hlow) (by linarith))
      have e2 : rouletteSelectD fl fused fusedW sumQ (fvec.map .fin) = selectByWeightD fl fused sumQ (ws.map .fin) := by
        funext k; unfold rouletteSelectD; rw [e]; rfl
      rw [e2]
      have el : ws.length = fvec.length := by simp [hws]
      rwa [el] at this

end Gapp.Props
