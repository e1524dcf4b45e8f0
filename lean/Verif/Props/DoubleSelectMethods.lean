import Verif.Props.DoubleSelect
/-!
# C29: rank, sigma and Boltzmann selection in binary64 arithmetic
-/

namespace Gapp.Props
open Gapp.Model Gapp.Spec

/-! ## Rank -/

/-- The loop that assigns to the candidate of rank `k` the value `val k`. -/
theorem rankFoldD {α : Type} (val : ℕ → α) (n : ℕ) : ∀ (l : List ℕ) (s : ℕ) (w : List α), w.length = n → l.Nodup → (∀ i ∈ l, i < n) →
    ∃ w', (l.zipIdx s).foldlM (fun weights p => if p.1 < weights.length then some (weights.set p.1 (val p.2)) else none) w = some w' ∧
      w'.length = n ∧ (∀ (k i : ℕ), l[k]? = some i → w'[i]? = some (val (s + k))) ∧ ∀ i, i ∉ l → w'[i]? = w[i]?
  | [], s, w, hw, _, _ => ⟨w, by simp, hw, by simp, fun _ _ => rfl⟩
  | i :: l, s, w, hw, hnd, hlt => by
      rw [List.nodup_cons] at hnd
      obtain ⟨w', h1, h2, h3, h4⟩ := rankFoldD val n l (s + 1) (w.set i (val s)) (by simpa using hw) hnd.2 (fun j hj => hlt j (List.mem_cons_of_mem _ hj))
      have hi : i < w.length := by rw [hw]; exact hlt i List.mem_cons_self
      refine ⟨w', ?_, h2, ?_, ?_⟩
      · simp only [List.zipIdx_cons, List.foldlM_cons, hi, if_true, Option.bind_eq_bind, Option.bind_some]
        exact h1
      · intro k j hk
        cases k with
        | zero =>
          simp at hk; subst hk
          rw [h4 i hnd.1]; simp [hi]
        | succ k =>
          rw [h3 k j (by simpa using hk)]
          congr 2; omega
      · intro j hj
        simp only [List.mem_cons, not_or] at hj
        rw [h4 j hj.2, List.getElem?_set_ne (Ne.symm hj.1)]

theorem ofNatD_eq {n : ℕ} (h : n ≤ 2 ^ 53) : ofNatD n = .fin n := roundD_self (isDouble_nat h)

/-- C29: rank selection of two or more candidates in binary64 arithmetic. -/
theorem C29_double_rank_partial (fl : CdfFlags) (fused : Bool) (sumQ : Dbl → List Dbl → Dbl) (hsum : SumContract sumQ) (lerp : Dbl → Dbl → Dbl → Dbl) (hlerp : LerpContract lerp)
    (minW maxW : ℚ) (hmin : IsDouble minW) (hmax : IsDouble maxW) (h0 : 0 ≤ minW) (hle : minW ≤ maxW) (hbig : 2 ^ (-1022 : ℤ) ≤ maxW ∨ maxW = 0)
    (fvec : List ℚ) (h2 : 2 ≤ fvec.length) (hn : fvec.length < 2 ^ 46) (indices : List ℕ) (hsort : IsArgsortOf false (fun a b => decide (a < b)) fvec indices) :
    ∃ ws, rankWeightsD lerp (.fin minW) (.fin maxW) indices = some (ws.map .fin) ∧ WeightsFollowFitness fvec ws ∧ (∀ w ∈ ws, minW ≤ w ∧ w ≤ maxW) ∧
      (∀ i, indices[0]? = some i → ws[i]? = some minW) ∧ (∀ i, indices[fvec.length - 1]? = some i → ws[i]? = some maxW) ∧
      SelectsNearlyByWeight ws ((fvec.length + 12) / 2 ^ 53) (rankSelectD fl fused sumQ lerp (.fin minW) (.fin maxW) indices) := by
  obtain ⟨hperm, -⟩ := C48_argsort false _ fvec indices hsort
  have hil : indices.length = fvec.length := by simpa using hperm.length_eq
  have hnd : indices.Nodup := hperm.nodup_iff.mpr List.nodup_range
  have hlt : ∀ i ∈ indices, i < fvec.length := fun i hi => by simpa using hperm.mem_iff.mp hi
  set N : ℚ := ((fvec.length - 1 : ℕ) : ℚ) with hN
  have hNp : 0 < N := by rw [hN]; exact_mod_cast (by omega : 0 < fvec.length - 1)
  -- the parameter of `lerp`
  have ht : ∀ k, k < fvec.length → Dbl.div (ofNatD k) (Dbl.sub (ofNatD fvec.length) (.fin 1)) = .fin (roundQ (k / N)) ∧ 0 ≤ roundQ (k / N) ∧ roundQ (k / N) ≤ 1 := by
    intro k hk
    have hsub : Dbl.sub (ofNatD fvec.length) (.fin 1) = .fin N := by
      rw [ofNatD_eq (by omega), sub_eq_roundD, show (fvec.length : ℚ) - 1 = N by rw [hN]; push_cast [Nat.cast_sub (by omega : 1 ≤ fvec.length)]; rfl]
      exact roundD_self (isDouble_nat (by omega))
    have hkN : (k : ℚ) ≤ N := by rw [hN]; exact_mod_cast (by omega : k ≤ fvec.length - 1)
    obtain ⟨e1, _, e3, e4⟩ := roundD_nonneg_le (x := k / N) (k := 0) (by norm_num) (by norm_num) (by positivity) (by rw [zpow_zero, div_le_one hNp]; exact hkN)
    rw [hsub, ofNatD_eq (by omega), div_fin hNp.ne', e1]
    exact ⟨rfl, e3, by simpa using e4⟩
  let val : ℕ → Dbl := fun k => lerp (.fin minW) (.fin maxW) (Dbl.div (ofNatD k) (Dbl.sub (ofNatD fvec.length) (.fin 1)))
  have hval : ∀ k, k < fvec.length → ∃ x, val k = .fin x ∧ IsDouble x ∧ minW ≤ x ∧ x ≤ maxW := by
    intro k hk
    obtain ⟨e1, e2, e3⟩ := ht k hk
    have a := hlerp.mono minW maxW 0 (roundQ (k / N)) hmin hmax hle le_rfl e2 e3
    have b := hlerp.mono minW maxW (roundQ (k / N)) 1 hmin hmax hle e2 e3 le_rfl
    rw [hlerp.zero minW maxW hmin hmax] at a
    rw [hlerp.one minW maxW hmin hmax] at b
    have c := hlerp.isDbl (.fin minW) (.fin maxW) (.fin (roundQ (k / N)))
    show ∃ x, lerp _ _ _ = _ ∧ _
    rw [e1]
    generalize lerp (.fin minW) (.fin maxW) (.fin (roundQ (k / N))) = v at *
    cases v with
    | nan => cases a
    | ninf => cases a
    | pinf => cases b
    | fin x => exact ⟨x, rfl, c, of_decide_eq_true a, of_decide_eq_true b⟩
  have hmono : ∀ k l x y, k ≤ l → l < fvec.length → val k = .fin x → val l = .fin y → x ≤ y := by
    intro k l x y hkl hl hx hy
    obtain ⟨e1, e2, e3⟩ := ht k (by omega)
    obtain ⟨g1, g2, g3⟩ := ht l hl
    have a := hlerp.mono minW maxW (roundQ (k / N)) (roundQ (l / N)) hmin hmax hle e2 (roundQ_mono (by gcongr)) g3
    have hx' : lerp (.fin minW) (.fin maxW) (.fin (roundQ (k / N))) = .fin x := by rw [← e1]; exact hx
    have hy' : lerp (.fin minW) (.fin maxW) (.fin (roundQ (l / N))) = .fin y := by rw [← g1]; exact hy
    rw [hx', hy'] at a
    exact of_decide_eq_true a
  obtain ⟨w, hw, hwl, hwi, -⟩ := rankFoldD val fvec.length indices 0 (List.replicate fvec.length (.fin 0)) (by simp) hnd hlt
  have hrw : rankWeightsD lerp (.fin minW) (.fin maxW) indices = some w := by
    unfold rankWeightsD
    rw [hil]
    exact hw
  have hrank : ∀ i, i < fvec.length → ∃ k, k < fvec.length ∧ indices[k]? = some i := by
    intro i hi
    have : i ∈ indices := hperm.mem_iff.mpr (by simpa using hi)
    obtain ⟨k, hk, rfl⟩ := List.getElem_of_mem this
    exact ⟨k, by omega, List.getElem?_eq_getElem hk⟩
  -- the weights are numbers
  let toQ : Dbl → ℚ := fun d => match d with | .fin x => x | _ => 0
  have hwq : w = (w.map toQ).map .fin := by
    rw [List.map_map]
    conv_lhs => rw [← List.map_id w]
    apply List.map_congr_left
    intro d hd
    obtain ⟨i, hi, rfl⟩ := List.getElem_of_mem hd
    obtain ⟨k, hk, hki⟩ := hrank i (by omega)
    have := hwi k i hki
    rw [List.getElem?_eq_getElem hi, zero_add] at this
    obtain ⟨x, hx, _⟩ := hval k hk
    have hd2 := Option.some.inj this
    rw [hx] at hd2
    rw [hd2]; rfl
  set ws := w.map toQ with hws
  have hwsl : ws.length = fvec.length := by simp [hws, hwl]
  have hat : ∀ (k i : ℕ), indices[k]? = some i → ∃ x, ws[i]? = some x ∧ val k = .fin x ∧ IsDouble x ∧ minW ≤ x ∧ x ≤ maxW := by
    intro k i hk
    have hkl : k < fvec.length := by rw [← hil]; exact (List.getElem?_eq_some_iff.1 hk).1
    obtain ⟨x, hx, hxd, h1, h2⟩ := hval k hkl
    have := hwi k i hk
    rw [zero_add, hx] at this
    exact ⟨x, by rw [hws, List.getElem?_map, this]; rfl, hx, hxd, h1, h2⟩
  have hbound : ∀ x ∈ ws, IsDouble x ∧ minW ≤ x ∧ x ≤ maxW := by
    intro x hx
    obtain ⟨i, hi, rfl⟩ := List.getElem_of_mem hx
    obtain ⟨k, hk, hki⟩ := hrank i (by omega)
    obtain ⟨y, hy, _, h3⟩ := hat k i hki
    rw [List.getElem?_eq_getElem hi] at hy
    rw [Option.some.inj hy]; exact h3
  have hfirst : ∀ i, indices[0]? = some i → ws[i]? = some minW := by
    intro i hi
    obtain ⟨x, hx, hv, _⟩ := hat 0 i hi
    have e := (ht 0 (by omega)).1
    have : val 0 = .fin minW := by
      show lerp _ _ _ = _
      rw [e, Nat.cast_zero, zero_div, roundQ_zero]
      exact hlerp.zero _ _ hmin hmax
    rw [this] at hv; cases hv; exact hx
  have hlast : ∀ i, indices[fvec.length - 1]? = some i → ws[i]? = some maxW := by
    intro i hi
    obtain ⟨x, hx, hv, _⟩ := hat _ i hi
    have e := (ht (fvec.length - 1) (by omega)).1
    have : val (fvec.length - 1) = .fin maxW := by
      show lerp _ _ _ = _
      rw [e, ← hN, div_self hNp.ne', roundQ_of_binary53 (by simpa using isBinary53_nat (n := 1) (by norm_num))]
      exact hlerp.one _ _ hmin hmax
    rw [this] at hv; cases hv; exact hx
  refine ⟨ws, by rw [hrw, ← hwq], ⟨hwsl, fun x hx => h0.trans (hbound x hx).2.1, ?_⟩, fun x hx => (hbound x hx).2, hfirst, hlast, ?_⟩
  · intro i j fi fj wi wj hfi hfj hwi' hwj' hij
    obtain ⟨ki, hki, hki'⟩ := hrank i (List.getElem?_eq_some_iff.mp hfi).1
    obtain ⟨kj, hkj, hkj'⟩ := hrank j (List.getElem?_eq_some_iff.mp hfj).1
    obtain ⟨xi, hxi, hvi, _⟩ := hat ki i hki'
    obtain ⟨xj, hxj, hvj, _⟩ := hat kj j hkj'
    have hle : ki ≤ kj := by
      by_contra hc
      have hs' := hsort
      rw [isArgsortOf_iff] at hs'
      have := List.pairwise_iff_getElem.mp hs'.2 kj ki (by omega) (by omega) (by omega)
      rw [List.getElem?_eq_getElem (by omega)] at hki' hkj'
      rw [Option.some.inj hki', Option.some.inj hkj'] at this
      have h3 := argCompare_eq false (fun a b : ℚ => decide (a < b)) fvec i j fi fj hfi hfj
      have h4 := h3.symm.trans this
      simp [argOrder] at h4
      linarith
    rw [hxi] at hwi'; rw [hxj] at hwj'
    cases hwi'; cases hwj'
    exact hmono ki kj _ _ hle hkj hvi hvj
  · have hne : ws ≠ [] := by rintro h; rw [h] at hwsl; simp at hwsl; omega
    have := C29_double_weights_partial fl fused sumQ hsum ws hne (by omega) (fun x hx => ⟨(hbound x hx).1, h0.trans (hbound x hx).2.1⟩) (by
      rcases hbig with h | h
      · left
        have hl : fvec.length - 1 < indices.length := by omega
        have := hlast _ (List.getElem?_eq_getElem hl)
        exact ⟨maxW, List.mem_of_getElem? this, h⟩
      · right
        intro x hx
        have := hbound x hx
        linarith [this.2.1, this.2.2])
    have e2 : rankSelectD fl fused sumQ lerp (.fin minW) (.fin maxW) indices = selectByWeightD fl fused sumQ (ws.map .fin) := by
      funext k; unfold rankSelectD; rw [hrw, ← hwq]; rfl
    rw [e2]
    rwa [hwsl] at this

/-! ## Sigma -/

/-- A product of two numbers that is not small has no digits below `2^-107`. -/
theorem product_multiple {y r : ℚ} (hy : IsBinary53 y) (hr : IsBinary53 r) (h : 1 / 2 ≤ |y * r|) : ∃ n : ℤ, y * r = n * 2 ^ (-107 : ℤ) := by
  obtain ⟨m, e, hm, _, rfl⟩ := hy
  obtain ⟨m', e', hm', _, rfl⟩ := hr
  have e1 : (m : ℚ) * 2 ^ e * (m' * 2 ^ e') = (m * m') * 2 ^ (e + e') := by rw [two_zpow_add]; ring
  rw [e1] at h ⊢
  have hmm : |(m : ℚ) * m'| ≤ 2 ^ 106 := by
    rw [abs_mul]
    have a : |(m : ℚ)| ≤ 2 ^ 53 := by exact_mod_cast hm
    have b : |(m' : ℚ)| ≤ 2 ^ 53 := by exact_mod_cast hm'
    calc |(m : ℚ)| * |(m' : ℚ)| ≤ 2 ^ 53 * 2 ^ 53 := by gcongr
      _ = 2 ^ 106 := by norm_num
  rw [abs_mul, abs_of_pos (two_zpow_pos _)] at h
  have h2 : (2 : ℚ) ^ (-107 : ℤ) ≤ 2 ^ (e + e') := by
    have : (1 : ℚ) / 2 ≤ 2 ^ 106 * 2 ^ (e + e') := h.trans (by gcongr)
    have e3 : (2 : ℚ) ^ (-107 : ℤ) = 1 / 2 / 2 ^ 106 := by norm_num
    rw [e3, div_le_iff₀ (by positivity)]
    linarith
  have h3 : -107 ≤ e + e' := (zpow_le_zpow_iff_right₀ (by norm_num : (1 : ℚ) < 2)).1 h2
  refine ⟨m * m' * 2 ^ (e + e' + 107).toNat, ?_⟩
  have := two_zpow_toNat (n := e + e' + 107) (by omega)
  push_cast at this ⊢
  rw [← this, mul_assoc, mul_assoc, ← two_zpow_add]
  ring_nf

/-- `1 + p`, rounded, is not tiny if it is not 0. -/
theorem one_add_big {p : ℚ} (hp : 1 / 2 ≤ |p| → ∃ n : ℤ, p = n * 2 ^ (-107 : ℤ)) (h0 : 0 ≤ roundQ (1 + p)) : roundQ (1 + p) = 0 ∨ 2 ^ (-1022 : ℤ) ≤ roundQ (1 + p) := by
  by_cases hneg : 1 + p ≤ 0
  · exact Or.inl (le_antisymm (roundQ_nonpos hneg) h0)
  · right
    rw [not_le] at hneg
    have key : (2 : ℚ) ^ (-107 : ℤ) ≤ 1 + p := by
      by_cases hs : 1 / 2 ≤ |p|
      · obtain ⟨n, hn⟩ := hp hs
        have hpos := two_zpow_pos (-107)
        have e1 : (1 : ℚ) = 2 ^ (107 : ℕ) * 2 ^ (-107 : ℤ) := by norm_num
        have e2 : 1 + p = ((2 ^ 107 + n : ℤ) : ℚ) * 2 ^ (-107 : ℤ) := by
          push_cast; rw [hn]; linarith [e1]
        rw [e2] at hneg ⊢
        have h1 : (0 : ℚ) < ((2 ^ 107 + n : ℤ) : ℚ) := by
          by_contra hc
          have : ((2 ^ 107 + n : ℤ) : ℚ) * 2 ^ (-107 : ℤ) ≤ 0 := mul_nonpos_of_nonpos_of_nonneg (not_lt.1 hc) hpos.le
          linarith
        have h2 : (1 : ℚ) ≤ ((2 ^ 107 + n : ℤ) : ℚ) := by
          have : 0 < 2 ^ 107 + n := by exact_mod_cast h1
          exact_mod_cast (by omega : (1 : ℤ) ≤ 2 ^ 107 + n)
        nlinarith
      · rw [not_le, abs_lt] at hs
        have : (2 : ℚ) ^ (-107 : ℤ) ≤ 1 / 2 := by norm_num
        exact this.trans (by linarith [hs.1])
    have := le_roundQ_of_binary53 key (isBinary53_zpow (by norm_num))
    exact (two_zpow_le (by norm_num)).trans this

/-- One weight of `Sigma`. -/
theorem sigma_weight (fused : Bool) {y : Dbl} {r : ℚ} (hy : y ≠ .nan) (hyd : IsDbl y) (hr : IsDouble r) (hr0 : 0 < r) :
    ∃ x, Dbl.clamp (Dbl.mulAdd fused y (.fin r) (.fin 1)) (.fin 0) largeD = .fin x ∧ IsDouble x ∧ 0 ≤ x ∧ (x = 0 ∨ 2 ^ (-1022 : ℤ) ≤ x) := by
  have hlarge : (2 : ℚ) ^ (-1022 : ℤ) ≤ 2 ^ 1024 - 2 ^ 971 :=
    le_large ⟨isBinary53_zpow (by norm_num), by rw [abs_of_pos (two_zpow_pos _)]; exact lt_two_pow_1024 (k := -1022) (by norm_num) le_rfl⟩
  have hl0 : (0 : ℚ) ≤ 2 ^ 1024 - 2 ^ 971 := (two_zpow_pos _).le.trans hlarge
  have hd0 : IsDouble 0 := by simpa using isDouble_nat (n := 0) (by norm_num)
  have hnn : Dbl.mulAdd fused y (.fin r) (.fin 1) ≠ .nan := mulAdd_ne_nan fused (mul_pos_ne_nan hr0 hy)
  obtain ⟨x, h1, h2, h3, h4⟩ := clamp_inBounds (lo := 0) (hi := 2 ^ 1024 - 2 ^ 971) hnn (isDbl_mulAdd ..) hd0 large_isDouble hl0
  refine ⟨x, h1, h2, h3, ?_⟩
  have h1' : (if (Dbl.mulAdd fused y (.fin r) (.fin 1)).lt (.fin 0) then Dbl.fin 0
      else if Dbl.lt (.fin (2 ^ 1024 - 2 ^ 971)) (Dbl.mulAdd fused y (.fin r) (.fin 1)) then .fin (2 ^ 1024 - 2 ^ 971) else Dbl.mulAdd fused y (.fin r) (.fin 1)) = .fin x := h1
  by_cases c1 : (Dbl.mulAdd fused y (.fin r) (.fin 1)).lt (.fin 0) = true
  · rw [if_pos c1] at h1'
    cases h1'; exact Or.inl rfl
  rw [if_neg c1] at h1'
  by_cases c2 : Dbl.lt (.fin (2 ^ 1024 - 2 ^ 971)) (Dbl.mulAdd fused y (.fin r) (.fin 1)) = true
  · rw [if_pos c2] at h1'
    have := Dbl.fin.inj h1'
    rw [← this]; exact Or.inr hlarge
  rw [if_neg c2] at h1'
  cases y with
  | nan => exact absurd rfl hy
  | pinf =>
    exfalso
    have : Dbl.mulAdd fused .pinf (.fin r) (.fin 1) = .pinf := by
      have e : Dbl.mul .pinf (.fin r) = .pinf := if_pos hr0
      cases fused <;> (show Dbl.add (.fin 1) (Dbl.mul .pinf (.fin r)) = _; rw [e]; rfl)
    rw [this] at h1'; cases h1'
  | ninf =>
    exfalso
    have : Dbl.mulAdd fused .ninf (.fin r) (.fin 1) = .ninf := by
      have e : Dbl.mul .ninf (.fin r) = .ninf := by
        show (if 0 < -r then Dbl.pinf else if -r < 0 then .ninf else .nan) = _
        rw [if_neg (by linarith), if_pos (by linarith)]
      cases fused <;> (show Dbl.add (.fin 1) (Dbl.mul .ninf (.fin r)) = _; rw [e]; rfl)
    rw [this] at h1'; cases h1'
  | fin y =>
    have hyb : IsDouble y := hyd
    rcases mulAdd_fin fused h1' with e | e
    · rw [e] at h3 ⊢
      exact one_add_big (product_multiple hyb.1 hr.1) h3
    · rw [e] at h3 ⊢
      refine one_add_big (fun h => ?_) h3
      have := product_multiple (roundQ_binary53 (y * r)) (by simpa using isBinary53_nat (n := 1) (by norm_num)) (by rwa [mul_one])
      rwa [mul_one] at this

/-- Rounding a number that is not larger than a binary number. -/
theorem roundD_cases {y B W : ℚ} (hW : W = 2 ^ 1024) (hB : IsBinary53 B) (h : |y| ≤ B) :
    (∃ q, roundD y = .fin q ∧ IsDouble q ∧ |q| ≤ B) ∨ ((roundD y = .pinf ∨ roundD y = .ninf) ∧ W ≤ B) := by
  rw [abs_le] at h
  have h1 := roundQ_le_of_binary53 h.2 hB
  have h2 := le_roundQ_of_binary53 h.1 (isBinary53_neg hB)
  unfold roundD
  rw [← hW]
  by_cases c1 : W ≤ roundQ y
  · rw [if_pos c1]
    exact Or.inr ⟨Or.inl rfl, c1.trans h1⟩
  rw [if_neg c1]
  by_cases c2 : roundQ y ≤ -W
  · rw [if_pos c2]
    exact Or.inr ⟨Or.inr rfl, by linarith⟩
  rw [if_neg c2]
  rw [not_le] at c1 c2
  exact Or.inl ⟨_, rfl, ⟨roundQ_binary53 y, by rw [← hW]; exact abs_lt.2 ⟨c2, c1⟩⟩, abs_le.2 ⟨by linarith, h1⟩⟩

/-- The sums of a mean are finite, or so large that they cannot be added to an infinity of the other sign. -/
theorem quotientSum_cases {recip : Bool} {n : Dbl} {m : ℕ} {e : ℤ} {T W : ℚ} (hW : ∀ {y B : ℚ}, IsBinary53 B → |y| ≤ B →
    (∃ q, roundD y = .fin q ∧ IsDouble q ∧ |q| ≤ B) ∨ ((roundD y = .pinf ∨ roundD y = .ninf) ∧ W ≤ B)) (he : -1074 ≤ e) (hT : T = m * 2 ^ e) {l : List Dbl} {s : Dbl}
    (h : QuotientSum recip n l s)
    (hl : ∀ d ∈ l, ∃ x, d = .fin x ∧ (∃ y, divR recip (.fin x) n = roundD y ∧ |y| ≤ T) ∧ (recip = true → ∃ r, Dbl.div (.fin 1) n = .fin r ∧ |x * r| ≤ T))
    (hn : l.length * m ≤ 2 ^ 53) (hlt : (l.length : ℚ) * T < 2 * W) :
    (∃ q, s = .fin q ∧ IsDouble q ∧ |q| ≤ l.length * T) ∨ ((s = .pinf ∨ s = .ninf) ∧ W ≤ l.length * T) := by
  have hT0 : 0 ≤ T := by rw [hT]; have := two_zpow_pos e; positivity
  have hbin : ∀ k : ℕ, k * m ≤ 2 ^ 53 → IsBinary53 ((k : ℚ) * T) := fun k hk =>
    ⟨(k * m : ℕ), e, by rw [Nat.abs_cast]; exact_mod_cast hk, he, by rw [hT]; push_cast; ring⟩
  have hd0 : IsDouble 0 := by simpa using isDouble_nat (n := 0) (by norm_num)
  induction h with
  | zero => exact Or.inl ⟨0, rfl, hd0, by simp⟩
  | term x =>
    obtain ⟨x, rfl, ⟨y, hy, hyb⟩, _⟩ := hl x (List.mem_singleton.2 rfl)
    rw [hy]
    exact hW (hbin _ hn) (by simpa using hyb)
  | @add l l1 l2 a b h1 h2 hp ih1 ih2 =>
    have hlen := hp.length_eq
    rw [List.length_append] at hlen
    have hq : (l.length : ℚ) * T = l1.length * T + l2.length * T := by rw [hlen]; push_cast; ring
    have n1 : (0 : ℚ) ≤ l1.length * T := by positivity
    have n2 : (0 : ℚ) ≤ l2.length * T := by positivity
    have m1 : l1.length * m ≤ l.length * m := Nat.mul_le_mul_right _ (by omega)
    have m2 : l2.length * m ≤ l.length * m := Nat.mul_le_mul_right _ (by omega)
    have i1 := ih1 (fun d hd => hl d (hp.mem_iff.2 (List.mem_append_left _ hd))) (m1.trans hn) (by linarith)
    have i2 := ih2 (fun d hd => hl d (hp.mem_iff.2 (List.mem_append_right _ hd))) (m2.trans hn) (by linarith)
    rcases i1 with ⟨x, rfl, hx, xb⟩ | ⟨rfl | rfl, xb⟩ <;> rcases i2 with ⟨y, rfl, hy, yb⟩ | ⟨rfl | rfl, yb⟩
    · refine hW (hbin _ hn) ((abs_add_le x y).trans ?_)
      linarith
    · exact Or.inr ⟨Or.inl rfl, by linarith⟩
    · exact Or.inr ⟨Or.inr rfl, by linarith⟩
    · exact Or.inr ⟨Or.inl rfl, by linarith⟩
    · exact Or.inr ⟨Or.inl rfl, by linarith⟩
    · exfalso; linarith
    · exact Or.inr ⟨Or.inr rfl, by linarith⟩
    · exfalso; linarith
    · exact Or.inr ⟨Or.inr rfl, by linarith⟩
  | @fused l l1 x a hr h1 hp ih =>
    have hlen := hp.length_eq
    rw [List.length_cons] at hlen
    have hq : (l.length : ℚ) * T = l1.length * T + T := by rw [hlen]; push_cast; ring
    have n1 : (0 : ℚ) ≤ l1.length * T := by positivity
    have m1 : l1.length * m ≤ l.length * m := Nat.mul_le_mul_right _ (by omega)
    have m2 : 1 * m ≤ l.length * m := Nat.mul_le_mul_right _ (by omega)
    obtain ⟨x, rfl, _, hr'⟩ := hl x (hp.mem_iff.2 List.mem_cons_self)
    obtain ⟨r, hr1, hr2⟩ := hr' hr
    rw [hr1]
    have hmul := hW (hbin 1 (m2.trans hn)) (y := x * r) (by simpa using hr2)
    rw [Nat.cast_one, one_mul] at hmul
    rcases ih (fun d hd => hl d (hp.mem_iff.2 (List.mem_cons_of_mem _ hd))) (m1.trans hn) (by linarith) with ⟨z, rfl, hz, zb⟩ | ⟨rfl | rfl, zb⟩
    · refine hW (hbin _ hn) ((abs_add_le z (x * r)).trans ?_)
      linarith
    · have e1 : Dbl.mulAdd true (.fin x) (.fin r) .pinf = Dbl.add .pinf (roundD (x * r)) := rfl
      rw [e1]
      rcases hmul with ⟨q, hq1, _⟩ | ⟨_, hq2⟩
      · rw [hq1]
        exact Or.inr ⟨Or.inl rfl, by linarith⟩
      · exfalso; linarith
    · have e1 : Dbl.mulAdd true (.fin x) (.fin r) .ninf = Dbl.add .ninf (roundD (x * r)) := rfl
      rw [e1]
      rcases hmul with ⟨q, hq1, _⟩ | ⟨_, hq2⟩
      · rw [hq1]
        exact Or.inr ⟨Or.inr rfl, by linarith⟩
      · exfalso; linarith

/-- The mean of numbers is a number or an infinity. -/
theorem mean_ne_nan (sumQ : Dbl → List Dbl → Dbl) (hsum : SumContract sumQ) (fvec : List ℚ) (hne : fvec ≠ []) (hn : fvec.length < 2 ^ 46) (hf : ∀ f ∈ fvec, IsDouble f) :
    mathMeanD sumQ (fvec.map .fin) ≠ .nan := by
  have hlen : 0 < fvec.length := List.length_pos_iff.2 hne
  unfold mathMeanD
  rw [List.length_map, ofNatD_eq (by omega)]
  obtain ⟨recip, hm⟩ := hsum (.fin (fvec.length : ℚ)) (fvec.map .fin)
  set n : ℚ := ((fvec.length : ℕ) : ℚ) with hnq
  have hn1 : 1 ≤ n := by rw [hnq]; exact_mod_cast hlen
  have hn0 : 0 < n := by linarith
  have hn2 : n < 2 ^ 46 := by rw [hnq]; exact_mod_cast hn
  obtain ⟨W, hW⟩ : ∃ W : ℚ, W = 2 ^ 1024 := ⟨_, rfl⟩
  have hWz : W = 2 ^ (1024 : ℤ) := hW.trans two_pow_1024
  have hW0 : 0 < W := by rw [hWz]; exact two_zpow_pos _
  have hfW : ∀ f ∈ fvec, |f| ≤ W := fun f hm => by rw [hW]; exact (hf f hm).2.le
  obtain ⟨S, hS, hSW⟩ : ∃ S : ℚ, S = 2 ^ (978 : ℤ) ∧ S * 2 ^ 46 = W := ⟨_, rfl, by rw [hWz, ← zpow_natCast, ← two_zpow_add]; norm_num⟩
  have hS0 : 0 < S := by rw [hS]; exact two_zpow_pos _
  have hcases : ∀ {y B : ℚ}, IsBinary53 B → |y| ≤ B →
    (∃ q, roundD y = .fin q ∧ IsDouble q ∧ |q| ≤ B) ∨ ((roundD y = .pinf ∨ roundD y = .ninf) ∧ W ≤ B) := fun h1 h2 => roundD_cases hW h1 h2
  clear hW hWz
  -- the bound of the terms
  obtain ⟨b, hb⟩ : ∃ b : ℚ, b = W * (9 / 8) / n := ⟨_, rfl⟩
  have hb0 : 0 < b := by rw [hb]; positivity
  have hbn : b * n = W * (9 / 8) := by rw [hb]; exact div_mul_cancel₀ _ hn0.ne'
  obtain ⟨g1, g2⟩ := binExp_spec hb0.ne'
  rw [abs_of_pos hb0] at g1 g2
  obtain ⟨e, he⟩ : ∃ e : ℤ, e = binExp b - 1 := ⟨_, rfl⟩
  have e1 : (2 : ℚ) ^ binExp b = 2 * 2 ^ e := by rw [show binExp b = 1 + e by omega, two_zpow_add, zpow_one]
  have e2 : (2 : ℚ) ^ (binExp b + 1) = 4 * 2 ^ e := by rw [show binExp b + 1 = 2 + e by omega, two_zpow_add]; norm_num
  rw [e1] at g1
  rw [e2] at g2
  have hep := two_zpow_pos e
  have hb46 : S ≤ b := by
    have h2 : S * n ≤ S * 2 ^ 46 := by gcongr
    by_contra hc
    rw [not_le] at hc
    have h3 : b * n < S * n := by gcongr
    clear hS
    linarith
  have he1 : -1074 ≤ e := by
    have h1 : (2 : ℚ) ^ (978 : ℤ) < 2 ^ (2 + e) := lt_of_le_of_lt (hS ▸ hb46) (by rw [two_zpow_add]; norm_num; exact g2)
    have := (zpow_lt_zpow_iff_right₀ (by norm_num : (1 : ℚ) < 2)).1 h1
    omega
  clear hS
  obtain ⟨m, hm'⟩ : ∃ m : ℕ, m = ⌈b / 2 ^ e⌉₊ := ⟨_, rfl⟩
  obtain ⟨T, hT⟩ : ∃ T : ℚ, T = m * 2 ^ e := ⟨_, rfl⟩
  have hbT : b ≤ T := by
    rw [hT, ← div_le_iff₀ hep, hm']
    exact Nat.le_ceil _
  have hm4 : m ≤ 4 := by
    rw [hm']
    refine Nat.ceil_le.2 ?_
    rw [div_le_iff₀ hep]; push_cast; exact g2.le
  have hTb : T ≤ b + 2 ^ e := by
    have := Nat.ceil_lt_add_one (a := b / 2 ^ e) (by positivity)
    rw [← hm'] at this
    have h2 : (m : ℚ) * 2 ^ e ≤ (b / 2 ^ e + 1) * 2 ^ e := by gcongr
    rw [add_mul, div_mul_cancel₀ _ hep.ne', one_mul] at h2
    rw [hT]; exact h2
  have hTb2 : T ≤ 3 / 2 * b := by linarith
  have hTn : n * T < 2 * W := by
    have : n * T ≤ n * (3 / 2 * b) := by gcongr
    have h2 : n * (3 / 2 * b) = 3 / 2 * (b * n) := by ring
    rw [h2, hbn] at this
    linarith
  -- the reciprocal
  obtain ⟨r1, r2, r3, r4⟩ := roundD_nonneg_le (x := 1 / n) (k := 0) (by norm_num) (by norm_num) (by positivity) (by rw [zpow_zero, div_le_one hn0]; exact hn1)
  have hr : Dbl.div (.fin 1) (.fin n) = .fin (roundQ (1 / n)) := by rw [div_fin hn0.ne', r1]
  have hr9 : roundQ (1 / n) ≤ 9 / 8 * (1 / n) := by
    have h1 := (abs_le.1 (roundQ_err (1 / n)).1).2
    have hi : (0 : ℚ) < 1 / n := by positivity
    rw [abs_of_pos hi] at h1
    have h2 : (2 : ℚ) ^ (-1075 : ℤ) ≤ 1 / n / 16 := by
      refine (two_zpow_le (a := -1075) (b := -50) (by norm_num)).trans ?_
      rw [div_div, le_div_iff₀ (by positivity)]
      have : (2 : ℚ) ^ (-50 : ℤ) * (2 ^ 46 * 16) = 1 := by norm_num
      calc (2 : ℚ) ^ (-50 : ℤ) * (n * 16) ≤ 2 ^ (-50 : ℤ) * (2 ^ 46 * 16) := by gcongr
        _ = 1 := this
    have h3 : 1 / n / 2 ^ 53 ≤ 1 / n / 16 := by gcongr; norm_num
    linarith
  have hprod : ∀ f ∈ fvec, |f / n| ≤ T ∧ |f * roundQ (1 / n)| ≤ T := by
    intro f hm
    have hff := hfW f hm
    have hb' : b = 9 / 8 * (W / n) := by rw [hb]; ring
    have h1 : |f| / n ≤ W / n := by gcongr
    have h0 : 0 ≤ W / n := by positivity
    constructor
    · rw [abs_div, abs_of_pos hn0]; linarith
    · rw [abs_mul, abs_of_nonneg r3]
      have h2 : |f| * roundQ (1 / n) ≤ |f| * (9 / 8 * (1 / n)) := by gcongr
      have h3 : |f| * (9 / 8 * (1 / n)) = 9 / 8 * (|f| / n) := by ring
      linarith
  have key := quotientSum_cases hcases he1 hT hm (by
    intro d hd
    obtain ⟨f, hfm, rfl⟩ := List.mem_map.1 hd
    obtain ⟨p1, p2⟩ := hprod f hfm
    refine ⟨f, rfl, ?_, fun _ => ⟨_, hr, p2⟩⟩
    cases recip
    · exact ⟨f / n, div_fin hn0.ne', p1⟩
    · refine ⟨f * roundQ (1 / n), ?_, p2⟩
      show Dbl.mul (.fin f) (Dbl.div (.fin 1) (.fin n)) = _
      rw [hr]; rfl) (by rw [List.length_map]; nlinarith) (by rw [List.length_map, ← hnq]; exact hTn)
  rcases key with ⟨q, h, _⟩ | ⟨h | h, _⟩ <;> rw [h] <;> intro hc <;> cases hc

theorem roundD_mono {x y : ℚ} (h : x ≤ y) : Dbl.le (roundD x) (roundD y) = true := by
  have h1 := roundQ_mono h
  obtain ⟨W, hW⟩ : ∃ W : ℚ, W = 2 ^ 1024 := ⟨_, rfl⟩
  have hW0 : 0 < W := by rw [hW, two_pow_1024]; exact two_zpow_pos _
  unfold roundD
  rw [← hW]
  by_cases c1 : W ≤ roundQ x
  · rw [if_pos c1, if_pos (c1.trans h1)]; rfl
  rw [if_neg c1]
  by_cases c2 : roundQ x ≤ -W
  · rw [if_pos c2]
    by_cases c3 : W ≤ roundQ y
    · rw [if_pos c3]; rfl
    rw [if_neg c3]
    by_cases c4 : roundQ y ≤ -W
    · rw [if_pos c4]; rfl
    · rw [if_neg c4]; rfl
  rw [if_neg c2]
  by_cases c3 : W ≤ roundQ y
  · rw [if_pos c3]; rfl
  rw [if_neg c3, if_neg (by intro h; exact c2 (h1.trans h))]
  exact decide_eq_true h1

theorem le_refl_dbl {a : Dbl} (h : a ≠ .nan) : Dbl.le a a = true := by
  cases a with
  | nan => exact absurd rfl h
  | fin x => exact decide_eq_true le_rfl
  | pinf => rfl
  | ninf => rfl

theorem pinf_mul {r : ℚ} (hr : 0 < r) : Dbl.mul .pinf (.fin r) = .pinf := if_pos hr

theorem ninf_mul {r : ℚ} (hr : 0 < r) : Dbl.mul .ninf (.fin r) = .ninf := by
  show (if 0 < -r then Dbl.pinf else if -r < 0 then .ninf else .nan) = _
  rw [if_neg (by linarith), if_pos (by linarith)]

theorem ninf_le {a : Dbl} (h : a ≠ .nan) : Dbl.le .ninf a = true := by
  cases a with
  | nan => exact absurd rfl h
  | fin x => rfl
  | pinf => rfl
  | ninf => rfl

theorem le_pinf {a : Dbl} (h : a ≠ .nan) : Dbl.le a .pinf = true := by
  cases a with
  | nan => exact absurd rfl h
  | fin x => rfl
  | pinf => rfl
  | ninf => rfl

theorem mul_mono_dbl {a b : Dbl} {r : ℚ} (hr : 0 < r) (h : Dbl.le a b = true) : Dbl.le (Dbl.mul a (.fin r)) (Dbl.mul b (.fin r)) = true := by
  cases a <;> cases b <;> first | cases h | skip
  · rw [ninf_mul hr]; rfl
  · rw [ninf_mul hr]; exact ninf_le (roundD_ne_nan _)
  · rw [ninf_mul hr, pinf_mul hr]; rfl
  · exact roundD_mono (mul_le_mul_of_nonneg_right (of_decide_eq_true h) hr.le)
  · rw [pinf_mul hr]; exact le_pinf (roundD_ne_nan _)
  · rw [pinf_mul hr]; rfl

theorem add_mono_dbl {a b : Dbl} (c : ℚ) (h : Dbl.le a b = true) : Dbl.le (Dbl.add (.fin c) a) (Dbl.add (.fin c) b) = true := by
  cases a <;> cases b <;> first | cases h | skip
  · rfl
  · exact ninf_le (roundD_ne_nan _)
  · rfl
  · exact roundD_mono (by linarith [of_decide_eq_true h])
  · exact le_pinf (roundD_ne_nan _)
  · rfl

theorem add_fin_comm (a : Dbl) (c : ℚ) : Dbl.add a (.fin c) = Dbl.add (.fin c) a := by
  cases a with
  | fin x => show roundD (x + c) = roundD (c + x); rw [add_comm]
  | _ => rfl

theorem sub_mono_dbl {a b : Dbl} (c : ℚ) (h : Dbl.le a b = true) : Dbl.le (Dbl.sub a (.fin c)) (Dbl.sub b (.fin c)) = true := by
  show Dbl.le (Dbl.add a (.fin (-c))) (Dbl.add b (.fin (-c))) = true
  rw [add_fin_comm, add_fin_comm]
  exact add_mono_dbl _ h

theorem mulAdd_mono_dbl (fused : Bool) {a b : Dbl} {r c : ℚ} (hr : 0 < r) (h : Dbl.le a b = true) :
    Dbl.le (Dbl.mulAdd fused a (.fin r) (.fin c)) (Dbl.mulAdd fused b (.fin r) (.fin c)) = true := by
  cases fused
  · exact add_mono_dbl c (mul_mono_dbl hr h)
  · have hp : Dbl.mulAdd true .pinf (.fin r) (.fin c) = .pinf := by show Dbl.add (.fin c) (Dbl.mul .pinf (.fin r)) = _; rw [pinf_mul hr]; rfl
    have hn : Dbl.mulAdd true .ninf (.fin r) (.fin c) = .ninf := by show Dbl.add (.fin c) (Dbl.mul .ninf (.fin r)) = _; rw [ninf_mul hr]; rfl
    cases a <;> cases b <;> first | cases h | skip
    · rw [hn]; rfl
    · rw [hn]; exact ninf_le (roundD_ne_nan _)
    · rw [hn, hp]; rfl
    · exact roundD_mono (by have := mul_le_mul_of_nonneg_right (of_decide_eq_true h) hr.le; linarith)
    · rw [hp]; exact le_pinf (roundD_ne_nan _)
    · rw [hp]; rfl

theorem clamp_mono_dbl {a b : Dbl} {lo hi x y : ℚ} (hle : lo ≤ hi) (h : Dbl.le a b = true) (hx : Dbl.clamp a (.fin lo) (.fin hi) = .fin x)
    (hy : Dbl.clamp b (.fin lo) (.fin hi) = .fin y) : x ≤ y := by
  have cl : ∀ (v : Dbl) (z : ℚ), Dbl.clamp v (.fin lo) (.fin hi) = .fin z → (v = .ninf ∧ z = lo) ∨ (v = .pinf ∧ z = hi) ∨ ∃ q, v = .fin q ∧ z = max lo (min q hi) := by
    intro v z hz
    cases v with
    | nan => cases hz
    | ninf => exact Or.inl ⟨rfl, (Dbl.fin.inj hz).symm⟩
    | pinf => exact Or.inr (Or.inl ⟨rfl, (Dbl.fin.inj hz).symm⟩)
    | fin q =>
      refine Or.inr (Or.inr ⟨q, rfl, ?_⟩)
      have hz' : (if decide (q < lo) = true then Dbl.fin lo else if decide (hi < q) = true then .fin hi else .fin q) = .fin z := hz
      by_cases c1 : q < lo
      · rw [if_pos (decide_eq_true c1)] at hz'
        rw [← Dbl.fin.inj hz', min_eq_left (c1.le.trans hle), max_eq_left c1.le]
      · rw [if_neg (by simpa using c1)] at hz'
        by_cases c2 : hi < q
        · rw [if_pos (decide_eq_true c2)] at hz'
          rw [← Dbl.fin.inj hz', min_eq_right c2.le, max_eq_right hle]
        · rw [if_neg (by simpa using c2)] at hz'
          rw [← Dbl.fin.inj hz', min_eq_left (not_lt.1 c2), max_eq_right (not_lt.1 c1)]
  rcases cl a x hx with ⟨rfl, rfl⟩ | ⟨rfl, rfl⟩ | ⟨q, rfl, rfl⟩ <;> rcases cl b y hy with ⟨rfl, rfl⟩ | ⟨rfl, rfl⟩ | ⟨q', rfl, rfl⟩ <;> first | cases h | skip
  · exact le_rfl
  · exact hle
  · exact le_max_left _ _
  · exact le_rfl
  · exact max_le hle (min_le_right _ _)
  · exact max_le_max le_rfl (min_le_min (of_decide_eq_true h) le_rfl)

theorem map_choice {α : Type} {P : ℚ → Prop} (g : α → Dbl) (l : List α) (h : ∀ a ∈ l, ∃ x, g a = .fin x ∧ P x) : ∃ ws : List ℚ, l.map g = ws.map .fin ∧ ∀ w ∈ ws, P w := by
  induction l with
  | nil => exact ⟨[], rfl, by simp⟩
  | cons a l ih =>
    obtain ⟨x, h1, h2⟩ := h a List.mem_cons_self
    obtain ⟨ws, h3, h4⟩ := ih (fun b hb => h b (List.mem_cons_of_mem _ hb))
    refine ⟨x :: ws, by simp [h1, h3], ?_⟩
    intro w hw
    rcases List.mem_cons.1 hw with rfl | hw
    · exact h2
    · exact h4 w hw

/-- C29: sigma selection in binary64 arithmetic. -/
theorem C29_double_sigma_partial (fl : CdfFlags) (fused fusedW : Bool) (sumQ : Dbl → List Dbl → Dbl) (hsum : SumContract sumQ)
    (stdDev : List Dbl → Dbl → Dbl) (fvec : List ℚ) (hne : fvec ≠ []) (hn : fvec.length < 2 ^ 46) (hf : ∀ f ∈ fvec, IsDouble f)
    (hdev : stdDev (fvec.map .fin) (mathMeanD sumQ (fvec.map .fin)) ≠ .nan) (hdev' : IsDbl (stdDev (fvec.map .fin) (mathMeanD sumQ (fvec.map .fin)))) :
    ∃ ws, sigmaWeightsD fusedW sumQ stdDev (fvec.map .fin) = ws.map .fin ∧ WeightsFollowFitness fvec ws ∧
      SelectsNearlyByWeight ws ((fvec.length + 12) / 2 ^ 53) (sigmaSelectD fl fused fusedW sumQ stdDev (fvec.map .fin)) := by
  have hm := mean_ne_nan sumQ hsum fvec hne hn hf
  have hsmall : IsDouble (2 ^ (-1022 : ℤ)) := ⟨isBinary53_zpow (by norm_num), by rw [abs_of_pos (two_zpow_pos _)]; exact lt_two_pow_1024 (k := -1022) (by norm_num) le_rfl⟩
  obtain ⟨d, hd1, hd2, hd3, hd4⟩ := clamp_inBounds (lo := 2 ^ (-1022 : ℤ)) (hi := 2 ^ 1024 - 2 ^ 971) hdev hdev' hsmall large_isDouble (le_large hsmall)
  obtain ⟨r, hr1, hr2, _, hr3, _⟩ := recip_spec hd3 (lt_of_le_of_lt (le_abs_self d) hd2.2)
  have hr0 : 0 < r := lt_of_lt_of_le (two_zpow_pos _) hr3
  set M := mathMeanD sumQ (fvec.map .fin) with hM
  have hweights : sigmaWeightsD fusedW sumQ stdDev (fvec.map .fin) =
      fvec.map (fun f => Dbl.clamp (Dbl.mulAdd fusedW (Dbl.sub (.fin f) M) (.fin r) (.fin 1)) (.fin 0) largeD) := by
    unfold sigmaWeightsD
    have e : Dbl.div (.fin 1) (Dbl.clamp (stdDev (fvec.map .fin) M) smallD largeD) = .fin r := by
      rw [← hr1, ← hd1]; rfl
    show (fvec.map Dbl.fin).map (fun f => Dbl.clamp (Dbl.mulAdd fusedW (Dbl.sub f M) (Dbl.div (.fin 1) (Dbl.clamp (stdDev (fvec.map .fin) M) smallD largeD)) (.fin 1)) (.fin 0) largeD) = _
    rw [e, List.map_map]
    rfl
  have hsub : ∀ f : ℚ, Dbl.sub (.fin f) M ≠ .nan := fun f => add_ne_nan (neg_ne_nan hm)
  obtain ⟨ws, hws, hwp⟩ := map_choice (P := fun x => IsDouble x ∧ 0 ≤ x ∧ (x = 0 ∨ 2 ^ (-1022 : ℤ) ≤ x))
    (fun f => Dbl.clamp (Dbl.mulAdd fusedW (Dbl.sub (.fin f) M) (.fin r) (.fin 1)) (.fin 0) largeD) fvec
    (fun f _ => sigma_weight fusedW (hsub f) (isDbl_add _ _) hr2 hr0)
  have hlen : ws.length = fvec.length := by simpa using (congrArg List.length hws).symm
  have hl0 : (0 : ℚ) ≤ 2 ^ 1024 - 2 ^ 971 := (two_zpow_pos _).le.trans (le_large hsmall)
  refine ⟨ws, by rw [hweights, hws], ⟨hlen, fun w hw => (hwp w hw).2.1, ?_⟩, ?_⟩
  · intro i j fi fj wi wj hfi hfj hwi hwj hij
    have gi := congrArg (fun l => l[i]?) hws
    have gj := congrArg (fun l => l[j]?) hws
    simp only [List.getElem?_map, hfi, hfj, hwi, hwj, Option.map_some, Option.some.injEq] at gi gj
    refine clamp_mono_dbl hl0 (mulAdd_mono_dbl fusedW hr0 ?_) gi gj
    cases hMc : M with
    | nan => exact absurd hMc hm
    | fin q => exact sub_mono_dbl q (decide_eq_true hij.le)
    | pinf => rfl
    | ninf => rfl
  · have hne' : ws ≠ [] := by rintro rfl; simp at hlen; exact hne (List.eq_nil_of_length_eq_zero hlen.symm)
    have := C29_double_weights_partial fl fused sumQ hsum ws hne' (by omega) (fun w hw => ⟨(hwp w hw).1, (hwp w hw).2.1⟩) (by
      by_cases hall : ∀ w ∈ ws, w = 0
      · exact Or.inr hall
      · push Not at hall
        obtain ⟨w, hw, hw0⟩ := hall
        exact Or.inl ⟨w, hw, (hwp w hw).2.2.resolve_left hw0⟩)
    have e2 : sigmaSelectD fl fused fusedW sumQ stdDev (fvec.map .fin) = selectByWeightD fl fused sumQ (ws.map .fin) := by
      funext k; unfold sigmaSelectD; rw [hweights, hws]
    rw [e2]
    rwa [hlen] at this

/-! ## Boltzmann -/

theorem gap_aux {m m' : ℤ} {e e' : ℤ} (he : e ≤ e') (hne : (m : ℚ) * 2 ^ e ≠ m' * 2 ^ e') : (2 : ℚ) ^ e ≤ |(m' : ℚ) * 2 ^ e' - m * 2 ^ e| := by
  have h1 := two_zpow_toNat (n := e' - e) (by omega)
  have h2 : (m' : ℚ) * 2 ^ e' - m * 2 ^ e = ((m' * 2 ^ (e' - e).toNat - m : ℤ) : ℚ) * 2 ^ e := by
    have : (2 : ℚ) ^ e' = 2 ^ (e' - e) * 2 ^ e := by rw [← two_zpow_add]; congr 1; omega
    rw [this, h1]; push_cast; ring
  have hp := two_zpow_pos e
  rw [h2, abs_mul, abs_of_pos hp]
  have h3 : m' * 2 ^ (e' - e).toNat - m ≠ 0 := by
    intro h
    rw [h, Int.cast_zero, zero_mul] at h2
    exact hne (by linarith)
  have h4 : (1 : ℚ) ≤ |((m' * 2 ^ (e' - e).toNat - m : ℤ) : ℚ)| := by exact_mod_cast Int.one_le_abs h3
  nlinarith

/-- Different numbers are not too close to each other. -/
theorem double_gap {x y : ℚ} (hx : IsBinary53 x) (hy : IsBinary53 y) (h : x < y) : |x| ≤ 2 ^ 54 * (y - x) ∧ |y| ≤ 2 ^ 54 * (y - x) := by
  have main : ∀ {x y : ℚ}, |x| ≤ 2 ^ 53 * |y - x| → |x| ≤ 2 ^ 54 * |y - x| ∧ |y| ≤ 2 ^ 54 * |y - x| := by
    intro x y h
    have h0 := abs_nonneg (y - x)
    have h1 : |y| ≤ |x| + |y - x| := by
      have := abs_add_le x (y - x); rwa [add_sub_cancel] at this
    constructor <;> linarith
  obtain ⟨m, e, hm, he, rfl⟩ := hx
  obtain ⟨m', e', hm', he', rfl⟩ := hy
  have a : |(m : ℚ)| ≤ 2 ^ 53 := by exact_mod_cast hm
  have a' : |(m' : ℚ)| ≤ 2 ^ 53 := by exact_mod_cast hm'
  rw [← abs_of_pos (sub_pos.2 h)]
  rcases le_total e e' with c | c
  · have g := gap_aux c h.ne
    refine main ?_
    have hp := two_zpow_pos e
    rw [abs_mul, abs_of_pos hp]
    gcongr
  · have g := gap_aux c h.ne'
    have hp := two_zpow_pos e'
    have := main (x := (m' : ℚ) * 2 ^ e') (y := (m : ℚ) * 2 ^ e) (by
      rw [abs_mul, abs_of_pos hp]
      gcongr)
    rw [abs_sub_comm] at this
    exact ⟨this.2, this.1⟩

/-- The divisor of the fitness values. -/
theorem boltzmann_df {lo hi : ℚ} (hlo : IsDouble lo) (hhi : IsDouble hi) (hle : lo ≤ hi) :
    ∃ d, Dbl.clamp (Dbl.sub (.fin hi) (.fin lo)) smallD largeD = .fin d ∧ IsDouble d ∧ 2 ^ (-1022 : ℤ) ≤ d ∧
      (lo < hi → ∀ f, IsDouble f → lo ≤ f → f ≤ hi → |f| ≤ 2 ^ 55 * d) := by
  have hsmall : IsDouble (2 ^ (-1022 : ℤ)) := ⟨isBinary53_zpow (by norm_num), by rw [abs_of_pos (two_zpow_pos _)]; exact lt_two_pow_1024 (k := -1022) (by norm_num) le_rfl⟩
  rw [sub_eq_roundD]
  obtain ⟨d, hd1, hd2, hd3, hd4⟩ := clamp_inBounds (lo := 2 ^ (-1022 : ℤ)) (hi := 2 ^ 1024 - 2 ^ 971) (roundD_ne_nan (hi - lo)) (isDbl_roundD _) hsmall large_isDouble (le_large hsmall)
  refine ⟨d, hd1, hd2, hd3, fun hlt f hf h1 h2 => ?_⟩
  have hfb : |f| ≤ 2 ^ 54 * (hi - lo) := by
    obtain ⟨g1, g2⟩ := double_gap hlo.1 hhi.1 hlt
    rw [abs_le] at g1 g2 ⊢
    constructor <;> linarith [g1.1, g2.2]
  have hD : (2 : ℚ) ^ (-1074 : ℤ) ≤ hi - lo := by
    obtain ⟨n, hn⟩ := binary53_multiple hlo.1
    obtain ⟨n', hn'⟩ := binary53_multiple hhi.1
    have hp := two_zpow_pos (-1074)
    have e : hi - lo = ((n' - n : ℤ) : ℚ) * 2 ^ (-1074 : ℤ) := by rw [hn, hn']; push_cast; ring
    have h3 : n < n' := by
      by_contra hc
      have : (n' : ℚ) ≤ n := by exact_mod_cast not_lt.1 hc
      have : (n' : ℚ) * 2 ^ (-1074 : ℤ) ≤ n * 2 ^ (-1074 : ℤ) := by gcongr
      rw [← hn, ← hn'] at this
      exact absurd hlt (not_lt.2 this)
    rw [e]
    have h4 : (1 : ℚ) ≤ ((n' - n : ℤ) : ℚ) := by exact_mod_cast (by omega : 1 ≤ n' - n)
    calc (2 : ℚ) ^ (-1074 : ℤ) = 1 * 2 ^ (-1074 : ℤ) := (one_mul _).symm
      _ ≤ _ := by gcongr
  have hhalf := half_le_roundQ hD
  have hd0 : 0 < d := lt_of_lt_of_le (two_zpow_pos _) hd3
  clear hD hsmall
  have hd1' : (if (roundD (hi - lo)).lt (.fin (2 ^ (-1022 : ℤ))) then Dbl.fin (2 ^ (-1022 : ℤ))
      else if Dbl.lt (.fin (2 ^ 1024 - 2 ^ 971)) (roundD (hi - lo)) then .fin (2 ^ 1024 - 2 ^ 971) else roundD (hi - lo)) = .fin d := hd1
  clear hd1
  cases hc : roundD (hi - lo) with
  | nan => exact absurd hc (roundD_ne_nan _)
  | ninf =>
    exfalso
    have := le_zero_roundD (x := hi - lo) (by linarith)
    rw [hc] at this; cases this
  | pinf =>
    rw [hc] at hd1'
    have e : d = 2 ^ 1024 - 2 ^ 971 := (Dbl.fin.inj hd1').symm
    have h5 : |f| ≤ d := by
      rw [e]
      exact abs_le.2 ⟨neg_le.1 (le_large ⟨isBinary53_neg hf.1, by rw [abs_neg]; exact hf.2⟩), le_large hf⟩
    clear hd1' e hd2 hd3 hd4 hf hlo hhi
    linarith
  | fin q =>
    have hq := (roundD_fin_iff.1 hc).1
    have hqd : IsDouble q := by have := isDbl_roundD (hi - lo); rw [hc] at this; exact this
    rw [hc] at hd1'
    have hqd' : q ≤ d := by
      by_cases c1 : q < 2 ^ (-1022 : ℤ)
      · exact c1.le.trans hd3
      rw [if_neg (by simpa [Dbl.lt] using not_lt.1 c1), if_neg (by
        have h6 : ¬ (2 ^ 1024 - 2 ^ 971 < q) := not_lt.2 (le_large hqd)
        intro h7
        exact h6 (of_decide_eq_true h7))] at hd1'
      exact (Dbl.fin.inj hd1').le
    clear hd1' hd2 hd3 hd4 hf hlo hhi hqd
    rw [← hq] at hhalf
    linarith

theorem fma_fin (x y z : ℚ) : fma (.fin x) (.fin y) (.fin z) = roundD (z + x * y) := rfl

/-- The normalized fitness follows the fitness. -/
theorem fnorm_mono (form : FnormForm) {d lo : ℚ} (hd : IsDouble d) (hd1 : 2 ^ (-1022 : ℤ) ≤ d) (hlo : |lo| ≤ 2 ^ 55 * d) {f g : ℚ} (hf : |f| ≤ 2 ^ 55 * d) (hg : |g| ≤ 2 ^ 55 * d)
    (hfg : f ≤ g) : Dbl.le (fnormD form (.fin d) (.fin lo) (.fin f)) (fnormD form (.fin d) (.fin lo) (.fin g)) = true := by
  have hd0 : 0 < d := lt_of_lt_of_le (two_zpow_pos _) hd1
  obtain ⟨r, hr1, hr2, _, hr3, hr4, _⟩ := recip_spec hd1 (lt_of_le_of_lt (le_abs_self d) hd.2)
  have hr0 : 0 < r := lt_of_lt_of_le (two_zpow_pos _) hr3
  clear hd hd1 hr2 hr3
  have fin_of : ∀ {x : ℚ}, |x| ≤ 2 ^ (56 : ℤ) → roundD x = .fin (roundQ x) := by
    intro x h
    obtain ⟨y, h1, -, -⟩ := bnd_roundD (k := 56) (by norm_num) (by norm_num) h
    rw [h1, (roundD_fin_iff.1 h1).1]
  have hquot : ∀ {x : ℚ}, |x| ≤ 2 ^ 55 * d → |x / d| ≤ 2 ^ (56 : ℤ) := by
    intro x h
    rw [abs_div, abs_of_pos hd0, div_le_iff₀ hd0]
    norm_num at h ⊢
    linarith
  have hprod : ∀ {x : ℚ}, |x| ≤ 2 ^ 55 * d → |x * r| ≤ 2 ^ (56 : ℤ) := by
    intro x h
    rw [abs_mul, abs_of_pos hr0]
    have : |x| * r ≤ 2 ^ 55 * d * r := by gcongr
    have h2 : (2 : ℚ) ^ 55 * d * r = 2 ^ 55 * (r * d) := by ring
    norm_num at this h2 ⊢
    linarith
  cases form
  · show Dbl.le (Dbl.sub (Dbl.div _ _) (Dbl.div _ _)) (Dbl.sub (Dbl.div _ _) (Dbl.div _ _)) = true
    rw [div_fin hd0.ne', div_fin hd0.ne', div_fin hd0.ne', fin_of (hquot hlo)]
    exact sub_mono_dbl _ (roundD_mono (by gcongr))
  · show Dbl.le (Dbl.sub (Dbl.mul _ (Dbl.div (.fin 1) (.fin d))) (Dbl.mul _ (Dbl.div (.fin 1) (.fin d)))) (Dbl.sub (Dbl.mul _ (Dbl.div (.fin 1) (.fin d))) (Dbl.mul _ (Dbl.div (.fin 1) (.fin d)))) = true
    rw [hr1, show Dbl.mul (.fin lo) (.fin r) = roundD (lo * r) from rfl, fin_of (hprod hlo)]
    exact sub_mono_dbl _ (roundD_mono (by gcongr))
  · show Dbl.le (fma _ (Dbl.div (.fin 1) (.fin d)) (Dbl.neg (Dbl.mul _ (Dbl.div (.fin 1) (.fin d))))) (fma _ (Dbl.div (.fin 1) (.fin d)) (Dbl.neg (Dbl.mul _ (Dbl.div (.fin 1) (.fin d))))) = true
    rw [hr1, show Dbl.mul (.fin lo) (.fin r) = roundD (lo * r) from rfl, fin_of (hprod hlo)]
    exact roundD_mono (by have := mul_le_mul_of_nonneg_right hfg hr0.le; linarith)
  · show Dbl.le (fma (.fin (-lo)) (Dbl.div (.fin 1) (.fin d)) (Dbl.mul _ (Dbl.div (.fin 1) (.fin d)))) (fma (.fin (-lo)) (Dbl.div (.fin 1) (.fin d)) (Dbl.mul _ (Dbl.div (.fin 1) (.fin d)))) = true
    rw [hr1, show Dbl.mul (.fin f) (.fin r) = roundD (f * r) from rfl, show Dbl.mul (.fin g) (.fin r) = roundD (g * r) from rfl, fin_of (hprod hf), fin_of (hprod hg)]
    refine roundD_mono ?_
    have := roundQ_mono (mul_le_mul_of_nonneg_right hfg hr0.le)
    linarith

theorem divR_mono (recip : Bool) {t : ℚ} (ht : IsDouble t) (ht1 : 2 ^ (-1022 : ℤ) ≤ t) {a b : Dbl} (h : Dbl.le a b = true) :
    Dbl.le (divR recip a (.fin t)) (divR recip b (.fin t)) = true := by
  have ht0 : 0 < t := lt_of_lt_of_le (two_zpow_pos _) ht1
  cases recip
  · have hp : Dbl.div .pinf (.fin t) = .pinf := pinf_mul ht0
    have hn : Dbl.div .ninf (.fin t) = .ninf := ninf_mul ht0
    show Dbl.le (Dbl.div a _) (Dbl.div b _) = true
    cases a <;> cases b <;> first | cases h | skip
    · rw [hn]; rfl
    · rw [hn, div_fin ht0.ne']; exact ninf_le (roundD_ne_nan _)
    · rw [hn, hp]; rfl
    · rw [div_fin ht0.ne', div_fin ht0.ne']
      have := of_decide_eq_true h
      exact roundD_mono (by gcongr)
    · rw [hp, div_fin ht0.ne']; exact le_pinf (roundD_ne_nan _)
    · rw [hp]; rfl
  · obtain ⟨r, hr1, _, _, hr3, _⟩ := recip_spec ht1 (lt_of_le_of_lt (le_abs_self t) ht.2)
    show Dbl.le (Dbl.mul a (Dbl.div (.fin 1) (.fin t))) (Dbl.mul b (Dbl.div (.fin 1) (.fin t))) = true
    rw [hr1]
    exact mul_mono_dbl (lt_of_lt_of_le (two_zpow_pos _) hr3) h

theorem min_large {v : Dbl} (hd : IsDbl v) (h : v = .nan ∨ Dbl.le (.fin 0) v = true) : ∃ x, Dbl.min largeD v = .fin x ∧ IsDouble x ∧ 0 ≤ x := by
  have hl : (0 : ℚ) ≤ 2 ^ 1024 - 2 ^ 971 := le_large (by simpa using isDouble_nat (n := 0) (by norm_num))
  have hlarge : ∃ x, largeD = .fin x ∧ IsDouble x ∧ 0 ≤ x := ⟨_, rfl, large_isDouble, hl⟩
  unfold Dbl.min
  by_cases c : v.lt largeD = true
  · rw [if_pos c]
    cases v with
    | nan => cases c
    | pinf => cases c
    | ninf => rcases h with h | h <;> cases h
    | fin x =>
      rcases h with h | h
      · cases h
      · exact ⟨x, rfl, hd, of_decide_eq_true h⟩
  · rw [if_neg c]; exact hlarge

theorem min_large_mono {u v : Dbl} (h : Dbl.le u v = true) {x y : ℚ} (hx : Dbl.min largeD u = .fin x) (hy : Dbl.min largeD v = .fin y) : x ≤ y := by
  obtain ⟨L, hL⟩ : ∃ L : ℚ, largeD = .fin L := ⟨_, rfl⟩
  rw [hL] at hx hy
  have cl : ∀ (v : Dbl) (z : ℚ), v ≠ .ninf → Dbl.min (.fin L) v = .fin z → z ≤ L ∧ (v = .nan ∨ v = .pinf → z = L) ∧ ∀ q, v = .fin q → z = min L q := by
    intro v z hv hz
    have hz' : (if v.lt (.fin L) then v else .fin L) = .fin z := hz
    cases v with
    | ninf => exact absurd rfl hv
    | nan => have := Dbl.fin.inj hz'; subst this; exact ⟨le_rfl, fun _ => rfl, fun q hq => by cases hq⟩
    | pinf => have := Dbl.fin.inj hz'; subst this; exact ⟨le_rfl, fun _ => rfl, fun q hq => by cases hq⟩
    | fin q =>
      have e : z = min L q := by
        by_cases c : q < L
        · rw [if_pos (show Dbl.lt (.fin q) (.fin L) = true from decide_eq_true c)] at hz'
          rw [min_eq_right c.le]; exact (Dbl.fin.inj hz').symm
        · rw [if_neg (by simpa [Dbl.lt] using c)] at hz'
          rw [min_eq_left (not_lt.1 c)]; exact (Dbl.fin.inj hz').symm
      refine ⟨by rw [e]; exact min_le_left _ _, (fun h => by rcases h with h | h <;> cases h), fun q' hq => ?_⟩
      rw [← Dbl.fin.inj hq]; exact e
  have hu : u ≠ .ninf := by rintro rfl; cases hx
  have hv : v ≠ .ninf := by rintro rfl; cases hy
  obtain ⟨a1, a2, a3⟩ := cl u x hu hx
  obtain ⟨b1, b2, b3⟩ := cl v y hv hy
  cases v with
  | ninf => exact absurd rfl hv
  | nan => rw [b2 (Or.inl rfl)]; exact a1
  | pinf => rw [b2 (Or.inr rfl)]; exact a1
  | fin q =>
    cases u with
    | ninf => exact absurd rfl hu
    | nan => cases h
    | pinf => cases h
    | fin p =>
      rw [a3 p rfl, b3 q rfl]
      exact min_le_min le_rfl (of_decide_eq_true h)

theorem sub_self_cases (v : Dbl) : Dbl.sub v v = .fin 0 ∨ Dbl.sub v v = .nan := by
  cases v with
  | nan => exact Or.inr rfl
  | pinf => exact Or.inr rfl
  | ninf => exact Or.inr rfl
  | fin x =>
    left
    rw [sub_eq_roundD, sub_self]
    exact roundD_self (by simpa using isDouble_nat (n := 0) (by norm_num))

theorem nan_divR (recip : Bool) (t : Dbl) : divR recip .nan t = .nan := by
  cases recip
  · rfl
  · show Dbl.mul .nan (Dbl.div (.fin 1) t) = _
    generalize Dbl.div (.fin 1) t = v
    cases v <;> rfl

theorem zero_divR (recip : Bool) (t : Dbl) : divR recip (.fin 0) t = .fin 0 ∨ divR recip (.fin 0) t = .nan := by
  have h0 : roundD 0 = .fin 0 := roundD_self (by simpa using isDouble_nat (n := 0) (by norm_num))
  cases recip
  · show Dbl.div (.fin 0) t = _ ∨ Dbl.div (.fin 0) t = _
    cases t with
    | nan => exact Or.inr rfl
    | pinf => exact Or.inl rfl
    | ninf => exact Or.inl rfl
    | fin x =>
      by_cases hx : x = 0
      · subst hx; right; show (if (0 : ℚ) = 0 then Dbl.nan else roundD (0 / 0)) = _; exact if_pos rfl
      · left; rw [div_fin hx, zero_div]; exact h0
  · show Dbl.mul (.fin 0) (Dbl.div (.fin 1) t) = _ ∨ Dbl.mul (.fin 0) (Dbl.div (.fin 1) t) = _
    generalize Dbl.div (.fin 1) t = v
    cases v with
    | nan => exact Or.inr rfl
    | pinf => right; show Dbl.scaledInf 0 = _; unfold Dbl.scaledInf; simp
    | ninf => right; show Dbl.scaledInf (-0) = _; unfold Dbl.scaledInf; simp
    | fin x => left; show roundD (0 * x) = _; rw [zero_mul]; exact h0

/-- C29: Boltzmann selection in binary64 arithmetic, with any temperature but 0. The last part asks for a weight that is not tiny only if the compiler contracts the
normalization of the fitness to a fused operation. -/
theorem C29_double_boltzmann_partial (fl : CdfFlags) (fused : Bool) (form : FnormForm) (recipT : Bool) (sumQ : Dbl → List Dbl → Dbl) (hsum : SumContract sumQ)
    (exp : Dbl → Dbl) (hexp : ExpContract exp) (temperature : Dbl) (hT : IsDbl temperature) (_hT0 : temperature ≠ .fin 0)
    (fvec : List ℚ) (hne : fvec ≠ []) (hn : fvec.length < 2 ^ 46) (hf : ∀ f ∈ fvec, IsDouble f) :
    ∃ ws, boltzmannWeightsD form recipT exp temperature (fvec.map .fin) = some (ws.map .fin) ∧ ws.length = fvec.length ∧ (∀ w ∈ ws, 0 ≤ w) ∧
      (∀ t, temperature = .fin t → 2 ^ (-1022 : ℤ) ≤ t → WeightsFollowFitness fvec ws) ∧
      (form = .plain ∨ form = .recip ∨ (∃ w ∈ ws, 2 ^ (-1022 : ℤ) ≤ w) ∨ (∀ w ∈ ws, w = 0) →
        SelectsNearlyByWeight ws ((fvec.length + 12) / 2 ^ 53) (boltzmannSelectD fl fused form recipT sumQ exp temperature (fvec.map .fin))) := by
  obtain ⟨lo, hlo1, hlo2, hlo3⟩ := minElement_val fvec hne
  obtain ⟨hi, hhi1, hhi2, hhi3⟩ := maxElement_val fvec hne
  obtain ⟨d, hd1, hd2, hd3, hd4⟩ := boltzmann_df (hf lo hlo2) (hf hi hhi2) (hlo3 hi hhi2)
  let g : ℚ → Dbl := fun f => Dbl.min largeD (exp (divR recipT (fnormD form (.fin d) (.fin lo) (.fin f)) temperature))
  have hweights : boltzmannWeightsD form recipT exp temperature (fvec.map .fin) = some (fvec.map g) := by
    unfold boltzmannWeightsD
    rw [hlo1, hhi1]
    show some ((fvec.map Dbl.fin).map (fun f => Dbl.min largeD (exp (divR recipT (fnormD form (Dbl.clamp (Dbl.sub (.fin hi) (.fin lo)) smallD largeD) (.fin lo) f) temperature)))) = _
    rw [hd1, List.map_map]
    rfl
  have hexp' : ∀ v, exp v = .nan ∨ Dbl.le (.fin 0) (exp v) = true := by
    intro v
    by_cases hv : v = .nan
    · rw [hv]; exact Or.inl hexp.nan
    · exact Or.inr (hexp.nonneg v hv)
  obtain ⟨ws, hws, hwp⟩ := map_choice (P := fun x => IsDouble x ∧ 0 ≤ x) g fvec (fun f _ => min_large (hexp.isDbl _) (hexp' _))
  have hlen : ws.length = fvec.length := by simpa using (congrArg List.length hws).symm
  have hget : ∀ {i : ℕ} {f w : ℚ}, fvec[i]? = some f → ws[i]? = some w → g f = .fin w := by
    intro i f w h1 h2
    have := congrArg (fun l => l[i]?) hws
    simpa only [List.getElem?_map, h1, h2, Option.map_some, Option.some.injEq] using this
  refine ⟨ws, by rw [hweights, hws], hlen, fun w hw => (hwp w hw).2, fun t ht ht1 => ⟨hlen, fun w hw => (hwp w hw).2, ?_⟩, fun hbig => ?_⟩
  · intro i j fi fj wi wj hfi hfj hwi hwj hij
    have gi := hget hfi hwi
    have gj := hget hfj hwj
    have mi := List.mem_of_getElem? hfi
    have mj := List.mem_of_getElem? hfj
    subst ht
    have hlh : lo < hi := lt_of_le_of_lt (hlo3 fi mi) (lt_of_lt_of_le hij (hhi3 fj mj))
    have hb := hd4 hlh
    refine min_large_mono (hexp.mono _ _ (divR_mono recipT hT ht1 ?_)) gi gj
    exact fnorm_mono form hd2 hd3 (hb lo (hf lo hlo2) le_rfl hlh.le) (hb fi (hf fi mi) (hlo3 fi mi) (hhi3 fi mi)) (hb fj (hf fj mj) (hlo3 fj mj) (hhi3 fj mj)) hij.le
  · have hne' : ws ≠ [] := by rintro rfl; simp at hlen; exact hne (List.eq_nil_of_length_eq_zero hlen.symm)
    have hlarge : (2 : ℚ) ^ (-1022 : ℤ) ≤ 2 ^ 1024 - 2 ^ 971 :=
      le_large ⟨isBinary53_zpow (by norm_num), by rw [abs_of_pos (two_zpow_pos _)]; exact lt_two_pow_1024 (k := -1022) (by norm_num) le_rfl⟩
    have hplain : fnormD form (.fin d) (.fin lo) (.fin lo) = .fin 0 ∨ fnormD form (.fin d) (.fin lo) (.fin lo) = .nan → ∃ w ∈ ws, 2 ^ (-1022 : ℤ) ≤ w := by
      intro hf0
      obtain ⟨i, hi', hil⟩ := List.getElem_of_mem hlo2
      have h1 : fvec[i]? = some lo := by rw [List.getElem?_eq_getElem hi', hil]
      have h2 : ws[i]? = some ws[i] := List.getElem?_eq_getElem (by omega)
      have h3 := hget h1 h2
      refine ⟨ws[i], List.getElem_mem _, ?_⟩
      have h4 : divR recipT (fnormD form (.fin d) (.fin lo) (.fin lo)) temperature = .fin 0 ∨ divR recipT (fnormD form (.fin d) (.fin lo) (.fin lo)) temperature = .nan := by
        rcases hf0 with h | h
        · rw [h]; exact zero_divR _ _
        · rw [h]; exact Or.inr (nan_divR _ _)
      have h3' : Dbl.min largeD (exp (divR recipT (fnormD form (.fin d) (.fin lo) (.fin lo)) temperature)) = .fin ws[i] := h3
      rcases h4 with h4 | h4
      · rw [h4, hexp.zero] at h3'
        have h5 : (if Dbl.lt (.fin 1) largeD then Dbl.fin 1 else largeD) = .fin ws[i] := h3'
        by_cases c : Dbl.lt (.fin 1) largeD = true
        · rw [if_pos c] at h5
          rw [← Dbl.fin.inj h5]
          exact two_zpow_le (a := -1022) (b := 0) (by norm_num)
        · rw [if_neg c] at h5
          rw [← Dbl.fin.inj h5]
          exact hlarge
      · rw [h4, hexp.nan] at h3'
        rw [← Dbl.fin.inj h3']
        exact hlarge
    have := C29_double_weights_partial fl fused sumQ hsum ws hne' (by omega) (fun w hw => ⟨(hwp w hw).1, (hwp w hw).2⟩) (by
      rcases hbig with rfl | rfl | h | h
      · exact Or.inl (hplain (sub_self_cases _))
      · exact Or.inl (hplain (sub_self_cases _))
      · exact Or.inl h
      · exact Or.inr h)
    have e2 : boltzmannSelectD fl fused form recipT sumQ exp temperature (fvec.map .fin) = selectByWeightD fl fused sumQ (ws.map .fin) := by
      funext k; unfold boltzmannSelectD; rw [hweights, hws]; rfl
    rw [e2]
    rwa [hlen] at this

/-! ## Cases that meet the hypotheses, and cases that do not -/

/-- The sum from the first to the last element. -/
def sumInOrder (n : Dbl) (l : List Dbl) : Dbl := l.foldl (fun acc x => Dbl.add acc (Dbl.div x n)) (.fin 0)

theorem sumInOrder_contract : SumContract sumInOrder := by
  intro n l
  refine ⟨false, ?_⟩
  induction l using Gapp.ListAux.snoc_induction with
  | nil => exact .zero
  | append_singleton l x ih =>
    have e : sumInOrder n (l ++ [x]) = Dbl.add (sumInOrder n l) (divR false x n) := by
      unfold sumInOrder; rw [List.foldl_append]; rfl
    rw [e]
    exact .add ih (.term x) (List.Perm.refl _)

/-- The fused sum, from the last to the first element. -/
def sumFused (n : Dbl) : List Dbl → Dbl
  | [] => .fin 0
  | x :: l => Dbl.mulAdd true x (Dbl.div (.fin 1) n) (sumFused n l)

theorem sumFused_contract : SumContract sumFused := by
  intro n l
  refine ⟨true, ?_⟩
  induction l with
  | nil => exact .zero
  | cons x l ih => exact .fused rfl ih (List.Perm.refl _)

/-- The exact value, rounded once. -/
def lerpOnce : Dbl → Dbl → Dbl → Dbl
  | .fin a, .fin b, .fin t => roundD (a + t * (b - a))
  | _, _, _ => .nan

theorem lerpOnce_contract : LerpContract lerpOnce where
  isDbl a b t := by
    cases a <;> cases b <;> cases t <;> first | exact trivial | exact isDbl_roundD _
  zero a b ha _ := by show roundD (a + 0 * (b - a)) = _; rw [zero_mul, add_zero]; exact roundD_self ha
  one a b _ hb := by show roundD (a + 1 * (b - a)) = _; rw [one_mul, add_sub_cancel]; exact roundD_self hb
  mono a b s t _ _ hab _ hst _ := roundD_mono (by
    have := mul_le_mul_of_nonneg_right hst (sub_nonneg.2 hab)
    linarith)

/-- A coarse exponential function: 0, 1 or infinite. -/
def expCoarse : Dbl → Dbl
  | .nan => .nan
  | .ninf => .fin 0
  | .pinf => .pinf
  | .fin x => if x < 0 then .fin 0 else if x < 1 then .fin 1 else .fin 2

theorem expCoarse_contract : ExpContract expCoarse where
  nan := rfl
  isDbl x := by
    have h0 : IsDouble 0 := by simpa using isDouble_nat (n := 0) (by norm_num)
    have h1 : IsDouble 1 := by simpa using isDouble_nat (n := 1) (by norm_num)
    have h2 : IsDouble 2 := by simpa using isDouble_nat (n := 2) (by norm_num)
    cases x with
    | fin x =>
      show IsDbl (if x < 0 then _ else if x < 1 then _ else _)
      by_cases c : x < 0
      · rw [if_pos c]; exact h0
      · rw [if_neg c]
        by_cases c : x < 1
        · rw [if_pos c]; exact h1
        · rw [if_neg c]; exact h2
    | nan => exact trivial
    | pinf => exact trivial
    | ninf => exact h0
  nonneg x hx := by
    cases x with
    | fin x =>
      show Dbl.le _ (if x < 0 then _ else if x < 1 then _ else _) = true
      by_cases c : x < 0
      · rw [if_pos c]; decide +kernel
      · rw [if_neg c]
        by_cases c : x < 1
        · rw [if_pos c]; decide +kernel
        · rw [if_neg c]; decide +kernel
    | nan => exact absurd rfl hx
    | pinf => rfl
    | ninf => decide +kernel
  zero := by decide +kernel
  mono x y h := by
    cases x <;> cases y <;> first | cases h | skip
    · decide +kernel
    · rename_i y
      show Dbl.le (.fin 0) (if y < 0 then _ else if y < 1 then _ else _) = true
      by_cases c : y < 0
      · rw [if_pos c]; decide +kernel
      · rw [if_neg c]
        by_cases c : y < 1
        · rw [if_pos c]; decide +kernel
        · rw [if_neg c]; decide +kernel
    · rfl
    · rename_i x y
      have hxy := of_decide_eq_true h
      show Dbl.le (if x < 0 then _ else if x < 1 then _ else _) (if y < 0 then _ else if y < 1 then _ else _) = true
      by_cases c : y < 0
      · rw [if_pos c, if_pos (lt_of_le_of_lt hxy c)]; decide +kernel
      · rw [if_neg c]
        by_cases c2 : x < 0
        · rw [if_pos c2]
          by_cases c3 : y < 1
          · rw [if_pos c3]; decide +kernel
          · rw [if_neg c3]; decide +kernel
        · rw [if_neg c2]
          by_cases c3 : y < 1
          · rw [if_pos c3, if_pos (lt_of_le_of_lt hxy c3)]; decide +kernel
          · rw [if_neg c3]
            by_cases c4 : x < 1
            · rw [if_pos c4]; decide +kernel
            · rw [if_neg c4]; decide +kernel
    · rename_i x
      show Dbl.le (if x < 0 then _ else if x < 1 then _ else _) .pinf = true
      by_cases c : x < 0
      · rw [if_pos c]; rfl
      · rw [if_neg c]
        by_cases c : x < 1
        · rw [if_pos c]; rfl
        · rw [if_neg c]; rfl
    · rfl

theorem isDouble_intCast {n : ℤ} (h : |n| ≤ 2 ^ 53) : IsDouble n := by
  refine ⟨⟨n, 0, h, by norm_num, by norm_num⟩, ?_⟩
  have h1 : |(n : ℚ)| ≤ 2 ^ (53 : ℤ) := by exact_mod_cast h
  exact lt_two_pow_1024 (by norm_num) h1

/-- The fitness values of the cases below. -/
def exampleFitness : List ℚ := [3, -1, 4, -1, 5]

theorem exampleFitness_isDouble : ∀ f ∈ exampleFitness, IsDouble f := by
  intro f hf
  have h : ∃ n : ℤ, |n| ≤ 2 ^ 53 ∧ f = n := by
    simp only [exampleFitness, List.mem_cons, List.not_mem_nil, or_false] at hf
    rcases hf with rfl | rfl | rfl | rfl | rfl
    · exact ⟨3, by norm_num, by norm_num⟩
    · exact ⟨-1, by norm_num, by norm_num⟩
    · exact ⟨4, by norm_num, by norm_num⟩
    · exact ⟨-1, by norm_num, by norm_num⟩
    · exact ⟨5, by norm_num, by norm_num⟩
  obtain ⟨n, hn, rfl⟩ := h
  exact isDouble_intCast hn

example : ∃ ws, rouletteWeightsD true (exampleFitness.map .fin) = some (ws.map .fin) ∧ WeightsFollowFitness exampleFitness ws ∧
    SelectsNearlyByWeight ws (17 / 2 ^ 53) (rouletteSelectD ⟨true, true⟩ true true sumFused (exampleFitness.map .fin)) := by
  have := C29_double_roulette_partial ⟨true, true⟩ true true sumFused sumFused_contract exampleFitness (by decide +kernel) (by decide +kernel)
    exampleFitness_isDouble (Or.inl ⟨3, by decide +kernel, by decide +kernel⟩)
  norm_num [exampleFitness] at this ⊢
  exact this

example : ∃ ws, rankWeightsD lerpOnce (.fin 0) (.fin 2) [1, 2, 0] = some (ws.map .fin) ∧ WeightsFollowFitness [3, 1, 2] ws ∧ ws[1]? = some 0 ∧ ws[0]? = some 2 ∧
    SelectsNearlyByWeight ws (15 / 2 ^ 53) (rankSelectD ⟨false, false⟩ false sumInOrder lerpOnce (.fin 0) (.fin 2) [1, 2, 0]) := by
  have h0 : IsDouble 0 := by simpa using isDouble_nat (n := 0) (by norm_num)
  have h2 : IsDouble 2 := by simpa using isDouble_nat (n := 2) (by norm_num)
  obtain ⟨ws, e1, e2, _, e4, e5, e6⟩ := C29_double_rank_partial ⟨false, false⟩ false sumInOrder sumInOrder_contract lerpOnce lerpOnce_contract 0 2 h0 h2 le_rfl (by norm_num)
    (Or.inl ((two_zpow_le (a := -1022) (b := 1) (by norm_num)).trans (by norm_num))) [3, 1, 2] (by norm_num) (by norm_num) [1, 2, 0] (by
      refine ⟨by decide, ?_⟩; norm_num [compareAt])
  refine ⟨ws, e1, e2, e4 1 rfl, e5 0 rfl, ?_⟩
  norm_num at e6 ⊢
  exact e6

example : ∃ ws, sigmaWeightsD false sumInOrder (fun _ _ => .fin 2) (exampleFitness.map .fin) = ws.map .fin ∧ WeightsFollowFitness exampleFitness ws ∧
    SelectsNearlyByWeight ws (17 / 2 ^ 53) (sigmaSelectD ⟨false, false⟩ false false sumInOrder (fun _ _ => .fin 2) (exampleFitness.map .fin)) := by
  have := C29_double_sigma_partial ⟨false, false⟩ false false sumInOrder sumInOrder_contract (fun _ _ => .fin 2) exampleFitness (by decide +kernel) (by decide +kernel)
    exampleFitness_isDouble (by decide +kernel) (show IsDouble 2 by simpa using isDouble_nat (n := 2) (by norm_num))
  norm_num [exampleFitness] at this ⊢
  exact this

example : ∃ ws, boltzmannWeightsD .plain false expCoarse (.fin 1) (exampleFitness.map .fin) = some (ws.map .fin) ∧ WeightsFollowFitness exampleFitness ws ∧
    SelectsNearlyByWeight ws ((exampleFitness.length + 12) / 2 ^ 53) (boltzmannSelectD ⟨false, false⟩ false .plain false sumInOrder expCoarse (.fin 1) (exampleFitness.map .fin)) := by
  obtain ⟨ws, h1, _, _, h4, h5⟩ := C29_double_boltzmann_partial ⟨false, false⟩ false .plain false sumInOrder sumInOrder_contract expCoarse expCoarse_contract (.fin 1)
    (show IsDouble 1 by simpa using isDouble_nat (n := 1) (by norm_num)) (by decide +kernel) exampleFitness (by decide +kernel) (by decide +kernel) exampleFitness_isDouble
  exact ⟨ws, h1, h4 1 rfl (two_zpow_le (a := -1022) (b := 0) (by norm_num)), h5 (Or.inl rfl)⟩

/-- C29 fails for weights that are too small: with one candidate the distribution function is infinite, and with two candidates it is not a number, and the draw violates a
precondition. -/
theorem C29_double_tiny_weights :
    weightsToCdfD ⟨false, false⟩ sumInOrder [.fin (2 ^ (-1074 : ℤ))] = some [.pinf] ∧
    weightsToCdfD ⟨false, false⟩ sumInOrder [.fin 0, .fin (2 ^ (-1074 : ℤ))] = some [.nan, .nan] ∧
    ∀ k, selectByWeightD ⟨false, false⟩ false sumInOrder [.fin 0, .fin (2 ^ (-1074 : ℤ))] k = none := by
  have h2 : weightsToCdfD ⟨false, false⟩ sumInOrder [.fin 0, .fin (2 ^ (-1074 : ℤ))] = some [.nan, .nan] := by decide +kernel
  refine ⟨by decide +kernel, h2, fun k => ?_⟩
  unfold selectByWeightD
  rw [h2]
  rfl

/-- The same with roulette selection: the fitness values 0 and `2^-1074`. -/
theorem C29_double_tiny_fitness (k : ℕ) : rouletteSelectD ⟨false, false⟩ false false sumInOrder [.fin 0, .fin (2 ^ (-1074 : ℤ))] k = none := by
  have h : rouletteWeightsD false [.fin 0, .fin (2 ^ (-1074 : ℤ))] = some [.fin 0, .fin (2 ^ (-1074 : ℤ))] := by decide +kernel
  unfold rouletteSelectD
  rw [h]
  exact C29_double_tiny_weights.2.2 k

/-- Rank selection of a single candidate divides 0 by 0: the parameter of `std::lerp` is not a number. -/
theorem C29_double_rank_single (lerp : Dbl → Dbl → Dbl → Dbl) (minW maxW : Dbl) : rankWeightsD lerp minW maxW [0] = some [lerp minW maxW .nan] := by
  have h : Dbl.div (ofNatD 0) (Dbl.sub (ofNatD 1) (.fin 1)) = .nan := by decide +kernel
  show some [lerp minW maxW (Dbl.div (ofNatD 0) (Dbl.sub (ofNatD 1) (.fin 1)))] = _
  rw [h]

end Gapp.Props
