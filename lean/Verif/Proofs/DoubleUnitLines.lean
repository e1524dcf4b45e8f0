import Verif.Proofs.DoubleRefLines
/-!
# Proofs about the normalization of the reference lines in binary64 arithmetic
-/

namespace Gapp.ListAux
open Gapp.Model Gapp.Spec Dbl

theorem sum_sq_sub (l : List ℚ) (a : ℚ) : (l.map (fun x => (a - x) ^ 2)).sum = l.length * a ^ 2 - 2 * a * l.sum + (l.map (fun x => x ^ 2)).sum := by
  induction l with
  | nil => simp
  | cons x l ih => simp only [List.map_cons, List.sum_cons, ih, List.length_cons]; push_cast; ring

/-- The Cauchy-Schwarz inequality. -/
theorem sq_sum_le_length_mul (l : List ℚ) : l.sum ^ 2 ≤ l.length * (l.map (fun x => x ^ 2)).sum := by
  induction l with
  | nil => simp
  | cons x l ih =>
    have h := sum_sq_sub l x
    have h0 : 0 ≤ (l.map (fun y => (x - y) ^ 2)).sum := List.sum_nonneg (by
      intro q hq
      obtain ⟨t, -, rfl⟩ := List.mem_map.mp hq
      positivity)
    simp only [List.map_cons, List.sum_cons, List.length_cons]
    push_cast
    nlinarith

/-- The inner product of a vector with itself. -/
theorem selfProduct_err (fused : Bool) (q : List ℚ) (hm : q.length ≤ 2 ^ 50) (hq : ∀ x ∈ q, |x| ≤ 2) :
    ∃ r, innerProductD fused (q.map .fin) (q.map .fin) = .fin r ∧
      |r - (q.map (fun x => x ^ 2)).sum| ≤ (2 * q.length + 3) * (1 / 2 ^ 53) * (q.map (fun x => x ^ 2)).sum + 2 * q.length * (3 * 2 ^ (-1075 : ℤ)) := by
  have hη1 : (2 : ℚ) ^ (-1075 : ℤ) ≤ 1 := by
    rw [show (1 : ℚ) = 2 ^ (0 : ℤ) by norm_num]; exact two_zpow_le (by norm_num)
  have hmQ : (q.length : ℚ) ≤ 2 ^ 50 := by exact_mod_cast hm
  have hk : (2 * (q.length : ℚ) + 3) * (1 / 2 ^ 53) ≤ 1 / 2 := by
    calc (2 * (q.length : ℚ) + 3) * (1 / 2 ^ 53) ≤ (2 * 2 ^ 50 + 3) * (1 / 2 ^ 53) := by gcongr
      _ ≤ 1 / 2 := by norm_num
  have hsq : ∀ x ∈ q, x ^ 2 ≤ 4 := by
    intro x hx
    have := hq x hx
    rw [← sq_abs]
    nlinarith [abs_nonneg x]
  have hip : innerProductD fused (q.map .fin) (q.map .fin) = q.foldl (fun s x => mulAdd fused (.fin x) (.fin x) s) (.fin 0) := by
    unfold innerProductD
    rw [List.zip_map', List.foldl_map]
  have h1000 : (2 : ℚ) ^ (60 : ℤ) ≤ 2 ^ (1000 : ℤ) := two_zpow_le (by norm_num)
  obtain ⟨r, h1, -, h2⟩ := sum_err (fun s x => mulAdd fused (.fin x) (.fin x) s) (fun x : ℚ => x ^ 2) (fun x => x ^ 2) (1 / 2 ^ 53) 3 (3 * 2 ^ (-1075 : ℤ)) (2 ^ (1000 : ℤ)) (by norm_num)
    (by norm_num) (by positivity) q.length hk q le_rfl (fun x _ => by rw [abs_of_nonneg (by positivity)])
    (by
      have e1 : (q.map (fun x : ℚ => x ^ 2)).sum ≤ (q.length : ℚ) * 4 := by
        have := list_sum_map_le q (fun x => x ^ 2) (fun x => 0 * x + 4) (fun x hx => by have := hsq x hx; linarith)
        rw [list_sum_map_affine q (fun x => x)] at this
        linarith
      refine le_trans ?_ h1000
      have e2 : 2 * (q.length : ℚ) * (3 * 2 ^ (-1075 : ℤ)) ≤ 2 * 2 ^ 50 * (3 * 1) := by gcongr
      norm_num at e2 hmQ ⊢
      linarith)
    (by
      intro x hx s hs
      obtain ⟨r, r1, r2, r3⟩ := mulAdd_err fused (x := x) (y := x) (z := s) (by
        have e2 : (2 : ℚ) ^ (1022 : ℤ) = 2 ^ (1000 : ℤ) * 2 ^ (22 : ℤ) := by rw [← two_zpow_add]; norm_num
        have e3 : (9 : ℚ) ≤ 2 ^ (22 : ℤ) := by norm_num
        have e5 : (1 : ℚ) ≤ 2 ^ (1000 : ℤ) := le_trans (by norm_num) h1000
        have e4 := hsq x hx
        have e7 : |x * x| ≤ 4 := by rw [abs_of_nonneg (mul_self_nonneg x), ← sq]; exact e4
        rw [e2]
        generalize (2 : ℚ) ^ (1000 : ℤ) = X at *
        generalize (2 : ℚ) ^ (22 : ℤ) = Y at *
        nlinarith only [e3, e5, e7, hs])
      refine ⟨r, r1, r2, ?_⟩
      rw [abs_of_nonneg (mul_self_nonneg x), ← sq] at r3
      linarith)
  exact ⟨r, by rw [hip]; exact h1, h2⟩

/-- The accuracy of the square root that follows from the requirements on it. -/
theorem sqrt_acc {sqrt : Dbl → Dbl} (hs : SqrtContract sqrt) {x : ℚ} (h0 : 0 ≤ x) (h4 : x < 4) : ∃ s, sqrt (.fin x) = .fin s ∧ 0 ≤ s ∧ |s ^ 2 - x| ≤ 2 ^ (-50 : ℤ) := by
  set k := Nat.sqrt ⌊x * 2 ^ 104⌋₊ with hk
  have hX0 : 0 ≤ x * 2 ^ 104 := by positivity
  have k1 : (k : ℚ) ^ 2 ≤ x * 2 ^ 104 := by
    have h1 : k ^ 2 ≤ ⌊x * 2 ^ 104⌋₊ := Nat.sqrt_le' _
    have h2 : ((k ^ 2 : ℕ) : ℚ) ≤ (⌊x * 2 ^ 104⌋₊ : ℕ) := by exact_mod_cast h1
    push_cast at h2
    exact h2.trans (Nat.floor_le hX0)
  have k2 : x * 2 ^ 104 ≤ ((k : ℚ) + 1) ^ 2 := by
    have h1 : ⌊x * 2 ^ 104⌋₊ < (k + 1) ^ 2 := Nat.lt_succ_sqrt' _
    have h2 := (Nat.floor_lt hX0).1 h1
    push_cast at h2
    exact h2.le
  have k3 : k < 2 ^ 53 := by
    have : (k : ℚ) ^ 2 < (2 ^ 53) ^ 2 := lt_of_le_of_lt k1 (by norm_num; linarith)
    have := lt_of_pow_lt_pow_left₀ 2 (by positivity) this
    exact_mod_cast this
  have hd : ∀ j : ℕ, j ≤ 2 ^ 53 → IsDouble ((j : ℚ) / 2 ^ 52) := by
    intro j hj
    refine ⟨⟨j, -52, by rw [Nat.abs_cast]; exact_mod_cast hj, by norm_num, by norm_num; ring⟩, lt_two_pow_1024 (k := 1) (by norm_num) ?_⟩
    rw [abs_of_nonneg (by positivity), div_le_iff₀ (by positivity)]
    have : (j : ℚ) ≤ 2 ^ 53 := by exact_mod_cast hj
    exact this.trans (by norm_num)
  have l1 : ((k : ℚ) / 2 ^ 52) ^ 2 ≤ x := by rw [div_pow, div_le_iff₀ (by positivity), ← pow_mul]; exact k1
  have l2 : x ≤ (((k + 1 : ℕ) : ℚ) / 2 ^ 52) ^ 2 := by rw [div_pow, le_div_iff₀ (by positivity), ← pow_mul]; push_cast; exact k2
  obtain ⟨s, e, s1, s2⟩ := hs.between x _ _ (by positivity) (hd k k3.le) (hd (k + 1) k3) (by positivity) l1 l2
  have hk0 : (0 : ℚ) ≤ (k : ℚ) / 2 ^ 52 := by positivity
  have s0 : 0 ≤ s := hk0.trans s1
  have q1 : ((k : ℚ) / 2 ^ 52) ^ 2 ≤ s ^ 2 := by gcongr
  have q2 : s ^ 2 ≤ (((k + 1 : ℕ) : ℚ) / 2 ^ 52) ^ 2 := by gcongr
  have q3 : (((k + 1 : ℕ) : ℚ) / 2 ^ 52) ^ 2 - ((k : ℚ) / 2 ^ 52) ^ 2 ≤ 2 ^ (-50 : ℤ) := by
    have : (k : ℚ) + 1 ≤ 2 ^ 53 := by exact_mod_cast k3
    rw [div_pow, div_pow, ← sub_div, div_le_iff₀ (by positivity)]
    push_cast
    norm_num at this ⊢
    linarith
  have aux : ∀ A B s' t y : ℚ, A ≤ y → y ≤ B → A ≤ s' → s' ≤ B → B - A ≤ t → |s' - y| ≤ t := by
    intro A B s' t y _ _ _ _ _
    rw [abs_le]
    constructor <;> linarith
  exact ⟨s, e, s0, aux _ _ _ _ _ l1 l2 q1 q2 q3⟩

/-- A point that is nearly on the simplex becomes a vector whose length is nearly 1. -/
theorem normalizeVectorD_spec (recip fused : Bool) (sqrt : Dbl → Dbl) (hsqrt : SqrtContract sqrt) (m : Nat) (hm : m ≤ 2 ^ 40) (p : List Dbl) {e : ℚ} (he : e ≤ 1 / 1000) (h : OnSimplexUpTo e m p) :
    NearUnit m (normalizeVectorD recip fused sqrt p) ∧ (∀ x ∈ normalizeVectorD recip fused sqrt p, ∃ q, x = .fin q ∧ |q| ≤ 2) ∧ SameDirection p (normalizeVectorD recip fused sqrt p) := by
  obtain ⟨q, rfl, hq⟩ := exists_fin_list p h.coord
  have hlen : q.length = m := by have := h.length; simpa using this
  have hsum := h.sum.trans he
  rw [fin_map_val] at hsum
  have hmQ : (m : ℚ) ≤ 2 ^ 40 := by exact_mod_cast hm
  have hm0 : (0 : ℚ) ≤ m := Nat.cast_nonneg _
  have hq2 : ∀ x ∈ q, |x| ≤ 2 := by
    intro x hx
    obtain ⟨-, a, b⟩ := hq x hx
    exact abs_le.2 ⟨le_trans (by norm_num) a, b⟩
  set S := (q.map (fun x => x ^ 2)).sum with hS
  -- the sum of the squares
  have hS1 : 99 / 100 ≤ m * S := by
    have h1 := sq_sum_le_length_mul q
    rw [hlen] at h1
    have h2 := (abs_le.1 hsum).1
    have h3 : 999 / 1000 ≤ q.sum := by norm_num at h2; linarith
    nlinarith
  have hS2 : S ≤ 3 := by
    have h1 : S ≤ (q.map (fun x => 2 * x + 8 * 2 ^ (-50 : ℤ))).sum := by
      apply list_sum_map_le
      intro x hx
      obtain ⟨-, a, b⟩ := hq x hx
      have hε : (2 : ℚ) ^ (-50 : ℤ) ≤ 1 / 100 := by norm_num
      have hε0 := two_zpow_pos (-50)
      generalize (2 : ℚ) ^ (-50 : ℤ) = ε at *
      nlinarith
    rw [list_sum_map_affine q (fun x => x), hlen, List.map_id'] at h1
    have h2 := (abs_le.1 hsum).2
    have h3 : (m : ℚ) * (8 * 2 ^ (-50 : ℤ)) ≤ 2 ^ 40 * (8 * 2 ^ (-50 : ℤ)) := by gcongr
    norm_num at h2 h3 h1
    linarith
  have hmpos : (1 : ℚ) ≤ m := by
    rcases Nat.eq_zero_or_pos m with rfl | hp
    · norm_num at hS1
    · exact_mod_cast hp
  have hS0 : 0 < S := by
    by_contra hn
    have : (m : ℚ) * S ≤ 0 := mul_nonpos_of_nonneg_of_nonpos hm0 (not_lt.1 hn)
    linarith
  have hS3 : 99 / 100 / 2 ^ 40 ≤ S := by
    rw [div_le_iff₀ (by positivity)]
    have : (m : ℚ) * S ≤ 2 ^ 40 * S := by gcongr
    linarith
  -- the computed sum of squares and its root
  obtain ⟨Q, eQ, hQ⟩ := selfProduct_err fused q (by omega) hq2
  rw [← hS, hlen] at hQ
  have hη : (2 : ℚ) ^ (-1075 : ℤ) ≤ 2 ^ (-200 : ℤ) := two_zpow_le (by norm_num)
  have hη0 := two_zpow_pos (-1075)
  have hu : (2 * (m : ℚ) + 3) * (1 / 2 ^ 53) ≤ 1 / 1000 := by
    calc (2 * (m : ℚ) + 3) * (1 / 2 ^ 53) ≤ (2 * 2 ^ 40 + 3) * (1 / 2 ^ 53) := by gcongr
      _ ≤ 1 / 1000 := by norm_num
  have hκ : 2 * (m : ℚ) * (3 * 2 ^ (-1075 : ℤ)) ≤ 1 / 100 * (1 / 2 ^ 53) * S := by
    calc 2 * (m : ℚ) * (3 * 2 ^ (-1075 : ℤ)) ≤ 2 * 2 ^ 40 * (3 * 2 ^ (-200 : ℤ)) := by gcongr
      _ ≤ 1 / 100 * (1 / 2 ^ 53) * (99 / 100 / 2 ^ 40) := by norm_num
      _ ≤ _ := by gcongr
  have hQS : |Q - S| ≤ 2 / 1000 * S := by
    have h1 : (2 * (m : ℚ) + 3) * (1 / 2 ^ 53) * S ≤ 1 / 1000 * S := by gcongr
    have h2 : 1 / 100 * (1 / 2 ^ 53) * S ≤ 1 / 1000 * S := by gcongr; norm_num
    linarith
  have hQ' := abs_le.1 hQS
  obtain ⟨s, es, s0, hs⟩ := sqrt_acc hsqrt (x := Q) (by linarith [hQ'.1]) (by linarith [hQ'.2])
  set ε := (11 * (m : ℚ) + 4) * (1 / 2 ^ 53) with hε
  have hε0 : 0 ≤ ε := by positivity
  have hε1 : ε ≤ 1 / 200 := by
    calc ε ≤ (11 * 2 ^ 40 + 4) * (1 / 2 ^ 53) := by rw [hε]; gcongr
      _ ≤ 1 / 200 := by norm_num
  have hsS : |s ^ 2 - S| ≤ ε * S := by
    have h1 := abs_add_le (s ^ 2 - Q) (Q - S)
    rw [sub_add_sub_cancel] at h1
    have h2 : (2 : ℚ) ^ (-50 : ℤ) ≤ 8.5 * m * (1 / 2 ^ 53) * S := by
      have : (2 : ℚ) ^ (-50 : ℤ) ≤ 8.5 * (1 / 2 ^ 53) * (99 / 100) := by norm_num
      have h3 : 8.5 * (1 / 2 ^ 53 : ℚ) * (99 / 100) ≤ 8.5 * (1 / 2 ^ 53) * (m * S) := by gcongr
      refine this.trans (h3.trans (le_of_eq (by ring)))
    have h4 : ε * S = (2 * (m : ℚ) + 3) * (1 / 2 ^ 53) * S + 8.5 * m * (1 / 2 ^ 53) * S + (m / 2 + 1) * (1 / 2 ^ 53) * S := by rw [hε]; ring
    have h5 : 1 / 100 * (1 / 2 ^ 53) * S ≤ (m / 2 + 1) * (1 / 2 ^ 53) * S := by gcongr; linarith
    rw [h4]
    have aux : ∀ a k A B C : ℚ, a ≤ B → k ≤ C → a + (A + k) ≤ A + B + C := by intro a k A B C _ _; linarith
    exact h1.trans ((add_le_add hs hQ).trans (aux _ _ _ _ _ h2 (hκ.trans h5)))
  have hsS' := abs_le.1 hsS
  have hss : 99 / 100 * S ≤ s ^ 2 := by nlinarith [hsS'.1]
  have hs2 : (2 : ℚ) ^ (-21 : ℤ) ≤ s := by
    by_contra hn
    rw [not_le] at hn
    have h1 : s ^ 2 < (2 ^ (-21 : ℤ)) ^ 2 := by gcongr
    have h2 : ((2 : ℚ) ^ (-21 : ℤ)) ^ 2 ≤ 99 / 100 * (99 / 100 / 2 ^ 40) := by norm_num
    have h3 : 99 / 100 * (99 / 100 / 2 ^ 40) ≤ 99 / 100 * S := by gcongr
    exact absurd (h1.trans_le (h2.trans (h3.trans hss))) (lt_irrefl _)
  have hs0 : 0 < s := lt_of_lt_of_le (two_zpow_pos _) hs2
  have hs4 : s ≤ 2 := by
    by_contra hn
    rw [not_le] at hn
    have : S * (1 + ε) ≤ 3.1 := by nlinarith
    nlinarith [hsS'.2]
  -- the entries
  have hl : ∀ x ∈ q, ∃ f, divR recip (.fin x) (.fin s) = .fin f ∧ IsBinary53 f ∧ |f - x / s| ≤ 7 / 2 ^ 53 * |x / s| + 2 ^ (-1075 : ℤ) ∧ |f| ≤ 2 ^ (430 : ℤ) := by
    intro x hx
    refine divR_err recip (a := x) (b := s) ((two_zpow_le (by norm_num)).trans hs2) (hs4.trans ?_) ((hq2 x hx).trans ?_) (by rw [sub_self, abs_zero]; positivity) (by rw [sub_self, abs_zero]; positivity)
    · simpa using two_zpow_le (show (1 : ℤ) ≤ 402 by norm_num)
    · simpa using two_zpow_le (show (1 : ℤ) ≤ 401 by norm_num)
  have hcomp : normalizeVectorD recip fused sqrt (q.map .fin) = q.map (fun x => divR recip (.fin x) (.fin s)) := by
    unfold normalizeVectorD
    rw [eQ, es, List.map_map]
    rfl
  rw [hcomp]
  set f : ℚ → ℚ := fun x => Dbl.val (divR recip (.fin x) (.fin s)) with hf
  have hl' : ∀ x ∈ q, divR recip (.fin x) (.fin s) = .fin (f x) ∧ IsBinary53 (f x) ∧ |f x ^ 2 - (x / s) ^ 2| ≤ 15 / 2 ^ 53 * (x / s) ^ 2 + 2 ^ (-150 : ℤ) ∧ |f x| ≤ 2 ^ (430 : ℤ) := by
    intro x hx
    obtain ⟨v, e, hb, herr, hbig⟩ := hl x hx
    have ev : f x = v := by rw [hf]; simp only [e, Dbl.val]
    rw [ev]
    refine ⟨e, hb, ?_, hbig⟩
    set g := x / s with hg
    have hg1 : |g| ≤ 2 ^ 22 := by
      rw [hg, abs_div, abs_of_pos hs0, div_le_iff₀ hs0]
      have : (2 : ℚ) ^ 22 * 2 ^ (-21 : ℤ) ≤ 2 ^ 22 * s := by gcongr
      have h2 := hq2 x hx
      norm_num at this ⊢
      linarith
    have h1 : v ^ 2 - g ^ 2 = (v - g) * ((v - g) + 2 * g) := by ring
    rw [h1, abs_mul]
    have h2 := abs_add_le (v - g) (2 * g)
    rw [abs_mul, abs_two] at h2
    have hη2 : (2 : ℚ) ^ (-1075 : ℤ) ≤ 2 ^ (-200 : ℤ) := hη
    have hd0 := abs_nonneg (v - g)
    have hg0 := abs_nonneg g
    rw [← sq_abs g]
    generalize |g| = G at *
    have h3 : |v - g| ≤ 7 / 2 ^ 53 * G + 2 ^ (-200 : ℤ) := herr.trans (by gcongr)
    calc |v - g| * |v - g + 2 * g| ≤ (7 / 2 ^ 53 * G + 2 ^ (-200 : ℤ)) * ((7 / 2 ^ 53 * G + 2 ^ (-200 : ℤ)) + 2 * G) := by
          gcongr
          linarith
      _ = (7 / 2 ^ 53) ^ 2 * G ^ 2 + 14 / 2 ^ 53 * G ^ 2 + (14 / 2 ^ 53 + 2) * 2 ^ (-200 : ℤ) * G + (2 ^ (-200 : ℤ)) ^ 2 := by ring
      _ ≤ 1 / 2 ^ 53 * G ^ 2 + 14 / 2 ^ 53 * G ^ 2 + (14 / 2 ^ 53 + 2) * 2 ^ (-200 : ℤ) * 2 ^ 22 + (2 ^ (-200 : ℤ)) ^ 2 := by gcongr; norm_num
      _ ≤ 15 / 2 ^ 53 * G ^ 2 + 2 ^ (-150 : ℤ) := by
          have : ((14 : ℚ) / 2 ^ 53 + 2) * 2 ^ (-200 : ℤ) * 2 ^ 22 + (2 ^ (-200 : ℤ)) ^ 2 ≤ 2 ^ (-150 : ℤ) := by norm_num
          have e : (15 : ℚ) / 2 ^ 53 * G ^ 2 = 1 / 2 ^ 53 * G ^ 2 + 14 / 2 ^ 53 * G ^ 2 := by ring
          rw [e]
          linarith
  have hmap : q.map (fun x => divR recip (.fin x) (.fin s)) = (q.map f).map .fin := by
    rw [List.map_map]
    exact List.map_congr_left (fun x hx => (hl' x hx).1)
  have hsq : ((q.map (fun x => divR recip (.fin x) (.fin s))).map (fun x => Dbl.val x ^ 2)) = q.map (fun x => f x ^ 2) := by
    rw [List.map_map]; rfl
  have hg2 : (q.map (fun x => (x / s) ^ 2)).sum = S / s ^ 2 := by
    have : ∀ l : List ℚ, (l.map (fun x => (x / s) ^ 2)).sum = (l.map (fun x => x ^ 2)).sum / s ^ 2 := by
      intro l
      induction l with
      | nil => simp
      | cons x l ih => simp only [List.map_cons, List.sum_cons, ih]; ring
    rw [this]
  have hnorm : |(q.map (fun x => f x ^ 2)).sum - 1| ≤ (m + 2) * 2 ^ (-48 : ℤ) := by
    have h1 : |(q.map (fun x => f x ^ 2)).sum - S / s ^ 2| ≤ 15 / 2 ^ 53 * (S / s ^ 2) + m * 2 ^ (-150 : ℤ) := by
      rw [← hg2, ← list_sum_map_sub]
      refine (list_abs_sum_le _ _).trans ?_
      have := list_sum_map_le q (fun x => |f x ^ 2 - (x / s) ^ 2|) (fun x => 15 / 2 ^ 53 * (x / s) ^ 2 + 2 ^ (-150 : ℤ)) (fun x hx => (hl' x hx).2.2.1)
      rw [list_sum_map_affine q (fun x => (x / s) ^ 2), hlen] at this
      exact this
    have hs20 : 0 < s ^ 2 := by positivity
    have h2 : S / s ^ 2 ≤ 1.02 := by
      rw [div_le_iff₀ hs20]
      linarith
    have h3 : |S / s ^ 2 - 1| ≤ 1.02 * ε := by
      have e : S / s ^ 2 - 1 = -((s ^ 2 - S) / s ^ 2) := by field_simp; ring
      rw [e, abs_neg, abs_div, abs_of_pos hs20]
      calc |s ^ 2 - S| / s ^ 2 ≤ ε * S / s ^ 2 := by gcongr
        _ = S / s ^ 2 * ε := by ring
        _ ≤ 1.02 * ε := by gcongr
    have h4 := abs_add_le ((q.map (fun x => f x ^ 2)).sum - S / s ^ 2) (S / s ^ 2 - 1)
    rw [sub_add_sub_cancel] at h4
    have h5 : (15 : ℚ) / 2 ^ 53 * (S / s ^ 2) ≤ 15 / 2 ^ 53 * 1.02 := by gcongr
    have h6 : (m : ℚ) * 2 ^ (-150 : ℤ) ≤ m * (1 / 2 ^ 53) := by gcongr; norm_num
    have h7 : ((m : ℚ) + 2) * 2 ^ (-48 : ℤ) = (32 * m + 64) * (1 / 2 ^ 53) := by norm_num; ring
    rw [h7]
    have h8 : (15 : ℚ) / 2 ^ 53 * 1.02 + m * (1 / 2 ^ 53) + 1.02 * ε = (12.22 * m + 19.38) * (1 / 2 ^ 53) := by rw [hε]; ring
    have h9 : (12.22 * (m : ℚ) + 19.38) * (1 / 2 ^ 53) ≤ (32 * m + 64) * (1 / 2 ^ 53) := by gcongr <;> norm_num
    linarith
  refine ⟨⟨by rw [List.length_map, hlen], ?_, by rw [hsq]; exact hnorm⟩, ?_, s, hs0, ?_⟩
  · intro x hx
    obtain ⟨y, hy, rfl⟩ := List.mem_map.1 hx
    obtain ⟨e, hb, -, hbig⟩ := hl' y hy
    exact ⟨f y, e, hb, lt_two_pow_1024 (k := 430) (by norm_num) hbig⟩
  · intro x hx
    obtain ⟨y, hy, rfl⟩ := List.mem_map.1 hx
    refine ⟨f y, (hl' y hy).1, ?_⟩
    have h1 : f y ^ 2 ≤ (q.map (fun x => f x ^ 2)).sum :=
      List.single_le_sum (by
        intro z hz
        obtain ⟨t, -, rfl⟩ := List.mem_map.mp hz
        positivity) _ (List.mem_map_of_mem hy)
    have h2 := (abs_le.1 hnorm).2
    have h3 : ((m : ℚ) + 2) * 2 ^ (-48 : ℤ) ≤ (2 ^ 40 + 2) * 2 ^ (-48 : ℤ) := by gcongr
    have h4 : ((2 : ℚ) ^ 40 + 2) * 2 ^ (-48 : ℤ) ≤ 1 := by norm_num
    exact abs_le_of_sq_le_sq (b := 2) (by linarith) (by norm_num)
  · intro i x hi
    rw [List.getElem?_map] at hi
    obtain ⟨y, hy, rfl⟩ := Option.map_eq_some_iff.1 hi
    obtain ⟨v, e, -, herr, -⟩ := hl y (List.mem_of_getElem? hy)
    exact ⟨v, by rw [List.getElem?_map, hy, Option.map_some, e], herr⟩

/-! ## The step sizes of the generator -/

/-- The relative error of the rounding of a number that is not tiny. -/
theorem roundQ_rel {x : ℚ} (h : 2 ^ (-1002 : ℤ) ≤ x) : |roundQ x - x| ≤ 101 / 100 * (1 / 2 ^ 53) * x := by
  have h1 := (roundQ_err x).1
  have h0 : 0 < x := lt_of_lt_of_le (two_zpow_pos _) h
  rw [abs_of_pos h0] at h1
  have h2 : (2 : ℚ) ^ (-1075 : ℤ) ≤ 1 / 100 * (1 / 2 ^ 53) * x := by
    calc (2 : ℚ) ^ (-1075 : ℤ) = 2 ^ (-73 : ℤ) * 2 ^ (-1002 : ℤ) := by rw [← two_zpow_add]; norm_num
      _ ≤ 1 / 100 * (1 / 2 ^ 53) * 2 ^ (-1002 : ℤ) := mul_le_mul_of_nonneg_right (by norm_num) (two_zpow_pos _).le
      _ ≤ _ := mul_le_mul_of_nonneg_left h (by norm_num)
  have e : 101 / 100 * (1 / 2 ^ 53) * x = x / 2 ^ 53 + 1 / 100 * (1 / 2 ^ 53) * x := by ring
  rw [e]
  exact h1.trans (add_le_add le_rfl h2)

/-- The step sizes of the generator. -/
theorem qrngAlphaD_err (φ : ℚ) (h1 : 1 ≤ φ) (h2 : φ ≤ 2) : ∀ (n k : Nat) (P X : ℚ), k + n ≤ 2 ^ 50 → 1 ≤ X → X * φ ^ n ≤ 2 ^ (1000 : ℤ) → |P - X| ≤ 2 * k * (1 / 2 ^ 53) * X →
    ∀ i, i < n → ∃ a, (qrngAlphaD (.fin φ) n (.fin P))[i]? = some (.fin a) ∧ |a - 1 / (X * φ ^ i)| ≤ (3 * (k + i) + 2) * (1 / 2 ^ 53) * (1 / (X * φ ^ i)) := by
  intro n
  induction n with
  | zero => intro k P X _ _ _ _ i hi; omega
  | succ n ih =>
    intro k P X hk hX hB hP i hi
    have hkQ : (k : ℚ) ≤ 2 ^ 50 := by
      have : k ≤ 2 ^ 50 := by omega
      exact_mod_cast this
    have hk0 : (0 : ℚ) ≤ k := Nat.cast_nonneg _
    have hX0 : 0 < X := by linarith
    have hε : 2 * (k : ℚ) * (1 / 2 ^ 53) ≤ 1 / 4 := by
      calc 2 * (k : ℚ) * (1 / 2 ^ 53) ≤ 2 * 2 ^ 50 * (1 / 2 ^ 53) := by gcongr
        _ ≤ 1 / 4 := by norm_num
    have hε0 : 0 ≤ 2 * (k : ℚ) * (1 / 2 ^ 53) := mul_nonneg (mul_nonneg (by norm_num) hk0) (by norm_num)
    obtain ⟨ε, hεd⟩ : ∃ ε, ε = 2 * (k : ℚ) * (1 / 2 ^ 53) := ⟨_, rfl⟩
    rw [← hεd] at hε hε0 hP
    have hPX := abs_le.1 hP
    have hP1 : 3 / 4 * X ≤ P := by nlinarith [hPX.1]
    have hP2 : P ≤ 5 / 4 * X := by nlinarith [hPX.2]
    have hφn : 1 ≤ φ ^ n := one_le_pow₀ h1
    have hXφ : X * φ ≤ 2 ^ (1000 : ℤ) := by
      refine le_trans ?_ hB
      rw [pow_succ]
      nlinarith [mul_le_mul_of_nonneg_left hφn (show 0 ≤ X * φ by positivity)]
    have hX1000 : X ≤ 2 ^ (1000 : ℤ) := le_trans (by nlinarith) hXφ
    cases i with
    | zero =>
      have hP0 : 0 < P := by linarith
      have hr : (2 : ℚ) ^ (-1002 : ℤ) ≤ 1 / P := by
        rw [le_div_iff₀ hP0]
        calc (2 : ℚ) ^ (-1002 : ℤ) * P ≤ 2 ^ (-1002 : ℤ) * (2 ^ (1 : ℤ) * 2 ^ (1000 : ℤ)) := by
              refine mul_le_mul_of_nonneg_left ?_ (two_zpow_pos _).le
              refine hP2.trans (mul_le_mul (by norm_num) hX1000 hX0.le (by norm_num))
          _ = 2 ^ (-1 : ℤ) := by rw [← two_zpow_add, ← two_zpow_add]; norm_num
          _ ≤ 1 := by norm_num
      have hle : 1 / P ≤ 2 ^ (1 : ℤ) := by
        rw [div_le_iff₀ hP0]; norm_num; linarith
      refine ⟨roundQ (1 / P), ?_, ?_⟩
      · show some (div (.fin 1) (.fin P)) = _
        show some (if P = 0 then Dbl.nan else roundD (1 / P)) = _
        rw [if_neg hP0.ne', roundD_small (k := 1) (by norm_num) (by norm_num) (by rw [abs_of_pos (by positivity)]; exact hle)]
      · have e1 := roundQ_rel hr
        rw [pow_zero, mul_one]
        have e2 : |1 / P - 1 / X| ≤ 4 / 3 * ε * (1 / X) := by
          have : 1 / P - 1 / X = -((P - X) / (P * X)) := by field_simp; ring
          rw [this, abs_neg, abs_div, abs_of_pos (mul_pos hP0 hX0), div_le_iff₀ (mul_pos hP0 hX0)]
          have e3 : 4 / 3 * ε * (1 / X) * (P * X) = 4 / 3 * ε * P := by field_simp
          rw [e3]
          nlinarith
        have e4 : 1 / P ≤ 4 / 3 * (1 / X) := by
          rw [div_le_iff₀ hP0]
          have : 4 / 3 * (1 / X) * P = 4 / 3 * P / X := by ring
          rw [this, le_div_iff₀ hX0]
          linarith
        have e5 := abs_add_le (roundQ (1 / P) - 1 / P) (1 / P - 1 / X)
        rw [sub_add_sub_cancel] at e5
        have e6 : 101 / 100 * (1 / 2 ^ 53) * (1 / P) ≤ 101 / 100 * (1 / 2 ^ 53) * (4 / 3 * (1 / X)) := mul_le_mul_of_nonneg_left e4 (by norm_num)
        refine e5.trans ((add_le_add (e1.trans e6) e2).trans ?_)
        have e7 : 101 / 100 * (1 / 2 ^ 53) * (4 / 3 * (1 / X)) + 4 / 3 * ε * (1 / X) = (101 / 75 + 8 / 3 * k) * (1 / 2 ^ 53) * (1 / X) := by rw [hεd]; ring
        rw [e7]
        push_cast
        gcongr ?_ * _ * _
        linarith
    | succ i =>
      have hPφ0 : 0 ≤ P * φ := by nlinarith
      have hx : (2 : ℚ) ^ (-1002 : ℤ) ≤ P * φ := by
        have : (2 : ℚ) ^ (-1002 : ℤ) ≤ 2 ^ (-1 : ℤ) := two_zpow_le (by norm_num)
        refine this.trans ?_
        norm_num
        nlinarith
      have hm : mul (.fin P) (.fin φ) = .fin (roundQ (P * φ)) := by
        refine roundD_small (k := 1001) (by norm_num) (by norm_num) ?_
        rw [abs_of_nonneg hPφ0]
        calc P * φ ≤ 5 / 4 * X * φ := by gcongr
          _ = 5 / 4 * (X * φ) := by ring
          _ ≤ 2 ^ (1 : ℤ) * 2 ^ (1000 : ℤ) := mul_le_mul (by norm_num) hXφ (by positivity) (by norm_num)
          _ = 2 ^ (1001 : ℤ) := by rw [← two_zpow_add]; norm_num
      have e1 := roundQ_rel hx
      obtain ⟨a, ha, hae⟩ := ih (k + 1) (roundQ (P * φ)) (X * φ) (by omega) (by nlinarith) (by
        refine le_trans (le_of_eq ?_) hB
        rw [pow_succ]; ring) (by
        have e2 := abs_add_le (roundQ (P * φ) - P * φ) (P * φ - X * φ)
        rw [sub_add_sub_cancel] at e2
        have e3 : |P * φ - X * φ| ≤ ε * (X * φ) := by
          rw [← sub_mul, abs_mul, abs_of_pos (show 0 < φ by linarith), ← mul_assoc]
          exact mul_le_mul_of_nonneg_right hP (by linarith)
        have e4 : P * φ ≤ 5 / 4 * (X * φ) := by nlinarith
        have e5 : 101 / 100 * (1 / 2 ^ 53) * (P * φ) ≤ 101 / 100 * (1 / 2 ^ 53) * (5 / 4 * (X * φ)) := mul_le_mul_of_nonneg_left e4 (by norm_num)
        refine e2.trans ((add_le_add (e1.trans e5) e3).trans ?_)
        have e6 : 101 / 100 * (1 / 2 ^ 53) * (5 / 4 * (X * φ)) + ε * (X * φ) = (101 / 80 + 2 * k) * (1 / 2 ^ 53) * (X * φ) := by rw [hεd]; ring
        rw [e6]
        push_cast
        have : 0 ≤ X * φ := by positivity
        gcongr ?_ * _ * _
        linarith) i (by omega)
      refine ⟨a, ?_, ?_⟩
      · rw [qrngAlphaD, hm, List.getElem?_cons_succ]
        exact ha
      · have e7 : X * φ * φ ^ i = X * φ ^ (i + 1) := by rw [pow_succ]; ring
        rw [e7] at hae
        refine hae.trans (le_of_eq ?_)
        push_cast
        ring

end Gapp.ListAux
