import Verif.Spec.DoubleNsga3Dist
import Verif.Proofs.DoubleNsga3
import Verif.Proofs.DoubleSimplexMaps
/-!
# The rounding errors of the distances from the reference lines
-/

namespace Gapp.ListAux
open Gapp.Model Gapp.Spec Dbl

/-! ## Sums of large numbers -/

theorem reduceSum_bound {M : ℚ} (hM : 2 ^ 43 * M ≤ 2 ^ (1000 : ℤ)) {l : List Dbl} {s : Dbl} (h : ReduceSum l s) : l.length ≤ 2 ^ 42 → (∀ x ∈ l, ∃ q, x = .fin q ∧ IsBinary53 q ∧ 0 ≤ q ∧ q ≤ M) →
    ∃ t : ℚ, s = .fin t ∧ IsBinary53 t ∧ 0 ≤ (l.map Dbl.val).sum ∧ (l.map Dbl.val).sum ≤ l.length * M ∧
      (1 - 1 / 2 ^ 53) ^ l.length * (l.map Dbl.val).sum ≤ t ∧ t ≤ (1 + 1 / 2 ^ 53) ^ l.length * (l.map Dbl.val).sum := by
  induction h with
  | single x =>
    intro _ hx
    obtain ⟨q, rfl, hq, q0, q1⟩ := hx x (by simp)
    refine ⟨q, rfl, hq, by simpa [Dbl.val] using q0, by simpa [Dbl.val] using q1, ?_, ?_⟩
    · simp only [List.length_singleton, pow_one, List.map_cons, List.map_nil, List.sum_cons, List.sum_nil, add_zero, Dbl.val]
      nlinarith
    · simp only [List.length_singleton, pow_one, List.map_cons, List.map_nil, List.sum_cons, List.sum_nil, add_zero, Dbl.val]
      nlinarith
  | @add l l1 l2 a b h1 h2 hp i1 i2 =>
    intro hl hx
    have hlen := hp.length_eq
    rw [List.length_append] at hlen
    obtain ⟨ta, rfl, ba, sa0, sa1, la, ua⟩ := i1 (by omega) (fun x h => hx x (hp.mem_iff.2 (List.mem_append_left _ h)))
    obtain ⟨tb, rfl, bb, sb0, sb1, lb, ub⟩ := i2 (by omega) (fun x h => hx x (hp.mem_iff.2 (List.mem_append_right _ h)))
    have hS : (l.map Dbl.val).sum = (l1.map Dbl.val).sum + (l2.map Dbl.val).sum := by rw [(hp.map Dbl.val).sum_eq, List.map_append, List.sum_append]
    have hlQ : (l.length : ℚ) = l1.length + l2.length := by rw [hlen]; push_cast; ring
    have ha0 : 0 ≤ ta := le_trans (mul_nonneg (pow_nonneg (by norm_num) _) sa0) la
    have hb0 : 0 ≤ tb := le_trans (mul_nonneg (pow_nonneg (by norm_num) _) sb0) lb
    have hsum1 : (l.map Dbl.val).sum ≤ l.length * M := by rw [hS, hlQ]; linarith
    have hM0 : 0 ≤ M := by
      have hpos : 0 < (l.length : ℚ) := by
        have := reduceSum_pos h1
        exact_mod_cast (by omega : 0 < l.length)
      have : 0 ≤ (l.map Dbl.val).sum := by rw [hS]; linarith
      by_contra hneg
      nlinarith [not_le.1 hneg]
    have hfin : add (.fin ta) (.fin tb) = .fin (roundQ (ta + tb)) := by
      refine roundD_small (k := 1000) (by norm_num) (by norm_num) ?_
      rw [abs_of_nonneg (by linarith)]
      have p1 := pow_one_add_le_two l1.length (by omega)
      have p2 := pow_one_add_le_two l2.length (by omega)
      have hc : (l.length : ℚ) ≤ 2 ^ 42 := by exact_mod_cast hl
      have q1 : (1 + 1 / 2 ^ 53 : ℚ) ^ l1.length * (l1.map Dbl.val).sum ≤ 2 * (l1.map Dbl.val).sum := mul_le_mul_of_nonneg_right p1 sa0
      have q2 : (1 + 1 / 2 ^ 53 : ℚ) ^ l2.length * (l2.map Dbl.val).sum ≤ 2 * (l2.map Dbl.val).sum := mul_le_mul_of_nonneg_right p2 sb0
      have q3 := mul_le_mul_of_nonneg_right hc hM0
      refine le_trans ?_ hM
      calc ta + tb ≤ 2 * (l.map Dbl.val).sum := by rw [hS]; linarith
        _ ≤ 2 * (l.length * M) := by linarith
        _ ≤ 2 * (2 ^ 42 * M) := by linarith
        _ = 2 ^ 43 * M := by ring
    have hcomb := combine_bounds (u := 1 / 2 ^ 53) (by norm_num) (by norm_num) (reduceSum_pos h1) (reduceSum_pos h2) sa0 sb0 ⟨la, ua⟩ ⟨lb, ub⟩ (round_add_bounds ba bb ha0 hb0)
    rw [← hlen, ← hS] at hcomb
    exact ⟨roundQ (ta + tb), hfin, roundQ_binary53 _, by rw [hS]; linarith, hsum1, hcomb.1, hcomb.2⟩

/-! ## Numbers -/

/-- The quotient of the inner products. -/
theorem coeff_err {r1 r2 N L w B : ℚ} (hB : 0 ≤ B) (w0 : 0 ≤ w) (w1 : w ≤ 1 / 8192) (hL : |L - 1| ≤ 1 / 100) (hN : |N| ≤ 2 * B) (h1 : |r1 - N| ≤ 36 * w * B) (h2 : |r2 - L| ≤ 65 * w) :
    0 < r2 ∧ |r1 / r2 - N / L| ≤ 204 * w * B ∧ |N / L| ≤ 21 / 10 * B ∧ |r1 / r2| ≤ 22 / 10 * B := by
  have hL' := abs_le.1 hL
  have h2' := abs_le.1 h2
  have hL0 : 0 < L := by linarith
  have hr2 : 98 / 100 ≤ r2 := by linarith
  have hr0 : 0 < r2 := by linarith
  have hk : |N / L| ≤ 21 / 10 * B := by
    rw [abs_div, abs_of_pos hL0, div_le_iff₀ hL0]
    nlinarith
  have hwB : 0 ≤ w * B := mul_nonneg w0 hB
  have hd : |r1 / r2 - N / L| ≤ 204 * w * B := by
    rw [show r1 / r2 - N / L = ((r1 - N) - N / L * (r2 - L)) / r2 by field_simp; ring, abs_div, abs_of_pos hr0, div_le_iff₀ hr0]
    have e1 := abs_sub (r1 - N) (N / L * (r2 - L))
    have e2 : |N / L * (r2 - L)| ≤ 21 / 10 * B * (65 * w) := by
      rw [abs_mul]
      exact mul_le_mul hk h2 (abs_nonneg _) (by linarith)
    nlinarith [mul_le_mul_of_nonneg_left hr2 hwB]
  refine ⟨hr0, hd, hk, ?_⟩
  have e3 := abs_add_le (r1 / r2 - N / L) (N / L)
  rw [sub_add_cancel] at e3
  have e4 : w * B ≤ 1 / 8192 * B := mul_le_mul_of_nonneg_right w1 hB
  linarith

/-- One square. `u` is the rounding error, `η` half of the smallest positive number. -/
theorem square_err {k κ f g l x sq u w B η : ℚ} (hB : 0 ≤ B) (u0 : 0 ≤ u) (hu : u ≤ w) (w1 : w ≤ 1 / 8192) (hη0 : 0 ≤ η) (hη : 4 * η ≤ u * B) (hk : |k - κ| ≤ 207 * w * B) (hκ : |κ| ≤ 21 / 10 * B)
    (hl : |l| ≤ 2) (hg : |g| ≤ B) (hf : |f - g| ≤ 7 * u * |g| + η) (hx : |x - (f + -k * l)| ≤ |f| * u + 3 * (|-k * l| * u) + 3 * η) (hs : |sq - x * x| ≤ |x * x| * u + η) :
    |sq - (g - κ * l) ^ 2| ≤ 5000 * w * B ^ 2 + η ∧ sq ≤ 36 * B ^ 2 + η := by
  have w0 : 0 ≤ w := u0.trans hu
  have hwB : 0 ≤ w * B := mul_nonneg w0 hB
  have huB : u * B ≤ w * B := mul_le_mul_of_nonneg_right hu hB
  have huB0 : 0 ≤ u * B := mul_nonneg u0 hB
  have hwB1 : w * B ≤ 1 / 8192 * B := mul_le_mul_of_nonneg_right w1 hB
  have f1 : |f - g| ≤ 8 * (u * B) := by
    have : 7 * u * |g| ≤ 7 * u * B := mul_le_mul_of_nonneg_left hg (by linarith)
    linarith
  have f2 : |f| ≤ 101 / 100 * B := by
    have := abs_add_le (f - g) g
    rw [sub_add_cancel] at this
    linarith
  have k2 : |k| ≤ 22 / 10 * B := by
    have := abs_add_le (k - κ) κ
    rw [sub_add_cancel] at this
    linarith
  have kl : |-k * l| ≤ 44 / 10 * B := by
    rw [abs_mul, abs_neg]
    calc |k| * |l| ≤ 22 / 10 * B * 2 := mul_le_mul k2 hl (abs_nonneg _) (by linarith)
      _ = _ := by ring
  have x1 : |x - (f + -k * l)| ≤ 16 * (u * B) := by
    have e1 : |f| * u ≤ 101 / 100 * B * u := mul_le_mul_of_nonneg_right f2 u0
    have e2 : |-k * l| * u ≤ 44 / 10 * B * u := mul_le_mul_of_nonneg_right kl u0
    have : B * u = u * B := mul_comm _ _
    linarith
  have x2 : |x - (g - κ * l)| ≤ 440 * (w * B) := by
    have e1 : x - (g - κ * l) = (x - (f + -k * l)) + (f - g) + (-(k - κ) * l) := by ring
    have e2 : |-(k - κ) * l| ≤ 207 * w * B * 2 := by
      rw [abs_mul, abs_neg]
      exact mul_le_mul hk hl (abs_nonneg _) (by linarith)
    rw [e1]
    have e3 := abs_add_le ((x - (f + -k * l)) + (f - g)) (-(k - κ) * l)
    have e4 := abs_add_le (x - (f + -k * l)) (f - g)
    linarith
  have y1 : |g - κ * l| ≤ 52 / 10 * B := by
    have e1 := abs_sub g (κ * l)
    have e2 : |κ * l| ≤ 21 / 10 * B * 2 := by
      rw [abs_mul]
      exact mul_le_mul hκ hl (abs_nonneg _) (by linarith)
    linarith
  have x3 : |x| ≤ 53 / 10 * B := by
    have := abs_add_le (x - (g - κ * l)) (g - κ * l)
    rw [sub_add_cancel] at this
    linarith
  have xx : |x * x| ≤ 29 * B ^ 2 := by
    rw [abs_mul]
    have := mul_le_mul x3 x3 (abs_nonneg _) (by linarith)
    nlinarith
  have hB2 : 0 ≤ B ^ 2 := by positivity
  have d1 : |x * x - (g - κ * l) ^ 2| ≤ 440 * (w * B) * (105 / 10 * B) := by
    rw [show x * x - (g - κ * l) ^ 2 = (x - (g - κ * l)) * (x + (g - κ * l)) by ring, abs_mul]
    refine mul_le_mul x2 ?_ (abs_nonneg _) (by linarith)
    have := abs_add_le x (g - κ * l)
    linarith
  have e5 : |x * x| * u ≤ 29 * B ^ 2 * w := (mul_le_mul_of_nonneg_right xx u0).trans (mul_le_mul_of_nonneg_left hu (by linarith))
  have hwB2 : 0 ≤ w * B ^ 2 := mul_nonneg w0 hB2
  have hwB3 : w * B ^ 2 ≤ 1 / 8192 * B ^ 2 := mul_le_mul_of_nonneg_right w1 hB2
  refine ⟨?_, ?_⟩
  · have := abs_add_le (sq - x * x) (x * x - (g - κ * l) ^ 2)
    rw [sub_add_sub_cancel] at this
    have e6 : 440 * (w * B) * (105 / 10 * B) = 4620 * (w * B ^ 2) := by ring
    have e7 : 29 * B ^ 2 * w = 29 * (w * B ^ 2) := by ring
    linarith
  · have e8 := (abs_le.1 hs).2
    have e9 := le_abs_self (x * x)
    have e7 : 29 * B ^ 2 * w = 29 * (w * B ^ 2) := by ring
    linarith

/-- The sum of the squares. -/
theorem distSum_err {t S D u w B η m : ℚ} (hm1 : 1 ≤ m) (u0 : 0 ≤ u) (w0 : 0 ≤ w) (w1 : w ≤ 1 / 8192) (η0 : 0 ≤ η) (hw : m * (m * u) = w) (S0 : 0 ≤ S) (hS : S ≤ m * (36 * B ^ 2 + η))
    (hD : |S - D| ≤ m * (5000 * w * B ^ 2 + η)) (tl : (1 - (m + 1) * u) * S ≤ t) (tu : t ≤ (1 + 2 * (m + 1) * u) * S) : |t - D| ≤ 5200 * (m * (w * B ^ 2)) + 2 * m * η := by
  have hmu0 : 0 ≤ m * u := mul_nonneg (by linarith) u0
  have hum : u ≤ m * u := le_mul_of_one_le_left u0 hm1
  have h1 := mul_le_mul_of_nonneg_right hum S0
  have h2 := mul_nonneg hmu0 S0
  have hts : |t - S| ≤ 4 * (m * u) * S := by
    rw [abs_le]
    constructor
    · linarith only [tl, h1, h2]
    · linarith only [tu, h1, h2]
  have hts2 : 4 * (m * u) * S ≤ 144 * (w * B ^ 2) + 4 * w * η := by
    refine (mul_le_mul_of_nonneg_left hS (show 0 ≤ 4 * (m * u) by linarith)).trans (le_of_eq ?_)
    rw [← hw]
    ring
  have h5 := abs_add_le (t - S) (S - D)
  rw [sub_add_sub_cancel] at h5
  have h6 : 4 * w * η ≤ m * η := mul_le_mul_of_nonneg_right (by linarith) η0
  have h7 : 0 ≤ w * B ^ 2 := by positivity
  have h8 : w * B ^ 2 ≤ m * (w * B ^ 2) := le_mul_of_one_le_left h7 hm1
  have h10 : m * (5000 * w * B ^ 2 + η) = 5000 * (m * (w * B ^ 2)) + m * η := by ring
  rw [h10] at hD
  linarith only [h5, hts, hts2, h6, h7, h8, hD]

/-! ## The smallest distance -/

theorem lineDist_min {β : Type} (Q : List β) (g l : β → ℚ) (hL : 0 < (Q.map (fun q => l q ^ 2)).sum) (t : ℚ) :
    (Q.map (fun q => (g q - (Q.map (fun q => g q * l q)).sum / (Q.map (fun q => l q ^ 2)).sum * l q) ^ 2)).sum ≤ (Q.map (fun q => (g q - t * l q) ^ 2)).sum := by
  have hex : ∀ (R : List β) (s : ℚ), (R.map (fun q => (g q - s * l q) ^ 2)).sum = (R.map (fun q => g q ^ 2)).sum - 2 * s * (R.map (fun q => g q * l q)).sum + s ^ 2 * (R.map (fun q => l q ^ 2)).sum := by
    intro R s
    induction R with
    | nil => simp
    | cons q R ih => simp only [List.map_cons, List.sum_cons, ih]; ring
  rw [hex Q, hex Q]
  generalize (Q.map (fun q => g q * l q)).sum = N
  generalize (Q.map (fun q => l q ^ 2)).sum = L at hL
  generalize (Q.map (fun q => g q ^ 2)).sum = G
  have e : (G - 2 * t * N + t ^ 2 * L) - (G - 2 * (N / L) * N + (N / L) ^ 2 * L) = L * (t - N / L) ^ 2 := by
    field_simp
    ring
  have : 0 ≤ L * (t - N / L) ^ 2 := by positivity
  linarith

theorem list_sum_abs_sub_le {β : Type} (Q : List β) (f g : β → ℚ) (c : ℚ) (h : ∀ q ∈ Q, |f q - g q| ≤ c) : |(Q.map f).sum - (Q.map g).sum| ≤ Q.length * c := by
  rw [← list_sum_map_sub]
  refine (list_abs_sum_le _ _).trans ?_
  calc (Q.map (fun q => |f q - g q|)).sum ≤ (Q.map (fun q => 0 * f q + c)).sum := list_sum_map_le _ _ _ (fun q hq => by have := h q hq; linarith)
    _ = _ := by rw [list_sum_map_affine]; ring

/-! ## The distance -/

theorem mulAdd_comm_fin (fused : Bool) (x y : ℚ) (z : Dbl) : mulAdd fused (.fin x) (.fin y) z = mulAdd fused (.fin y) (.fin x) z := by
  cases fused <;> cases z <;> simp [mulAdd, mul, add, mul_comm]

theorem innerProductD_swap (fused : Bool) {β : Type} (Q : List β) (f l : β → ℚ) :
    innerProductD fused (Q.map (fun q => .fin (l q))) (Q.map (fun q => .fin (f q))) = innerProductD fused (Q.map (fun q => .fin (f q))) (Q.map (fun q => .fin (l q))) := by
  unfold innerProductD
  rw [List.zip_map', List.zip_map', List.foldl_map, List.foldl_map]
  congr 1
  funext acc q
  exact mulAdd_comm_fin fused _ _ acc

/-- The distance, for values `f` that approximate `g` and a line of length 1 up to rounding. -/
theorem perpendicularDistanceSqD_err (fused : Bool) (sum : List Dbl → Dbl) (hsum : ReduceContract sum) {β : Type} (Q : List β) (f g l : β → ℚ) (m : Nat) (hQ : Q.length = m) (h0 : 0 < m) (hm : m ≤ 2 ^ 20)
    (hl : ∀ q ∈ Q, |l q| ≤ 2) (hL : |(Q.map (fun q => l q ^ 2)).sum - 1| ≤ (m + 2) * 2 ^ (-48 : ℤ)) (hf : ∀ q ∈ Q, |f q - g q| ≤ 7 / 2 ^ 53 * |g q| + 2 ^ (-1075 : ℤ) ∧ |f q| ≤ 2 ^ (430 : ℤ)) :
    ∃ t e : ℚ, perpendicularDistanceSqD fused sum (Q.map (fun q => .fin (l q))) (Q.map (fun q => .fin (f q))) = some (.fin t) ∧ IsLineDistSq (Q.map l) (Q.map g) e ∧
      |t - e| ≤ 5200 * m ^ 3 / 2 ^ 53 * ((Q.map (fun q => |g q|)).sum + 2 ^ (-1000 : ℤ)) ^ 2 + 2 * m * 2 ^ (-1075 : ℤ) := by
  have hη0 := two_zpow_pos (-1075)
  have hmQ : (m : ℚ) ≤ 2 ^ 20 := by exact_mod_cast hm
  have hm1 : (1 : ℚ) ≤ m := by exact_mod_cast h0
  have hA0 : 0 ≤ (Q.map (fun q => |g q|)).sum := List.sum_nonneg (by
    intro q hq
    obtain ⟨t, -, rfl⟩ := List.mem_map.mp hq
    exact abs_nonneg _)
  have hgA : ∀ q ∈ Q, |g q| ≤ (Q.map (fun q => |g q|)).sum := fun q hq => List.single_le_sum (by
    intro x hx
    obtain ⟨t, -, rfl⟩ := List.mem_map.mp hx
    exact abs_nonneg _) _ (List.mem_map_of_mem hq)
  have hgbig : ∀ q ∈ Q, |g q| ≤ 2 ^ (431 : ℤ) := by
    intro q hq
    obtain ⟨h1, h2⟩ := hf q hq
    have h3 := abs_sub_abs_le_abs_sub (g q) (f q)
    rw [abs_sub_comm] at h3
    have h4 : (7 : ℚ) / 2 ^ 53 * |g q| ≤ 1 / 4 * |g q| := mul_le_mul_of_nonneg_right (by norm_num) (abs_nonneg _)
    have h5 : (2 : ℚ) ^ (-1075 : ℤ) ≤ 1 / 4 * 2 ^ (430 : ℤ) := by
      calc (2 : ℚ) ^ (-1075 : ℤ) ≤ 2 ^ (428 : ℤ) := two_zpow_le (by norm_num)
        _ = 1 / 4 * 2 ^ (430 : ℤ) := by
          rw [show (430 : ℤ) = 2 + 428 by norm_num, two_zpow_add]
          generalize (2 : ℚ) ^ (428 : ℤ) = z
          norm_num
          ring
    have h6 : (2 : ℚ) ^ (431 : ℤ) = 2 * 2 ^ (430 : ℤ) := by rw [show (431 : ℤ) = 1 + 430 by norm_num, two_zpow_add]; norm_num
    have hp := two_zpow_pos 430
    rw [h6]
    generalize (2 : ℚ) ^ (430 : ℤ) = X at *
    linarith only [h1, h2, h3, h4, h5, hp]
  have hAbig : (Q.map (fun q => |g q|)).sum ≤ 2 ^ (451 : ℤ) := by
    calc (Q.map (fun q => |g q|)).sum ≤ (Q.map (fun q => 0 * |g q| + 2 ^ (431 : ℤ))).sum := list_sum_map_le _ _ _ (fun t ht => by have := hgbig t ht; linarith)
      _ = m * 2 ^ (431 : ℤ) := by rw [list_sum_map_affine, hQ]; ring
      _ ≤ 2 ^ (20 : ℤ) * 2 ^ (431 : ℤ) := by gcongr; exact_mod_cast hmQ
      _ = 2 ^ (451 : ℤ) := by rw [← two_zpow_add]; norm_num
  -- the inner products
  obtain ⟨r1, e1, b1⟩ := inner_err fused Q f g (Q.map (fun q => .fin (l q))) (by simp) (by omega) (by
    intro x hx
    obtain ⟨q, hq, rfl⟩ := List.mem_map.mp hx
    exact ⟨_, rfl, hl q hq⟩) hf
  obtain ⟨r2, e2, b2⟩ := inner_err fused Q l l (Q.map (fun q => .fin (l q))) (by simp) (by omega) (by
    intro x hx
    obtain ⟨q, hq, rfl⟩ := List.mem_map.mp hx
    exact ⟨_, rfl, hl q hq⟩) (by
    intro q hq
    refine ⟨by rw [sub_self, abs_zero]; positivity, (hl q hq).trans ?_⟩
    calc (2 : ℚ) = 2 ^ (1 : ℤ) := by norm_num
      _ ≤ 2 ^ (430 : ℤ) := two_zpow_le (by norm_num))
  have hdot : ∀ h : β → ℚ, dotQ (Q.map h) (Q.map (fun q => .fin (l q))) = (Q.map (fun q => h q * l q)).sum := by
    intro h
    unfold dotQ
    rw [List.zipWith_map, List.zipWith_self]
    rfl
  have hl2 : (Q.map (fun q => l q * l q)) = Q.map (fun q => l q ^ 2) := List.map_congr_left (fun q _ => by ring)
  rw [hdot] at b1 b2
  rw [hl2] at b2
  rw [hQ] at b1 b2
  have hlsum : (Q.map (fun q => |l q|)).sum ≤ 2 * m := by
    calc (Q.map (fun q => |l q|)).sum ≤ (Q.map (fun q => 0 * |l q| + 2)).sum := list_sum_map_le _ _ _ (fun t ht => by have := hl t ht; linarith)
      _ = _ := by rw [list_sum_map_affine, hQ]; ring
  have hN : |(Q.map (fun q => g q * l q)).sum| ≤ 2 * (Q.map (fun q => |g q|)).sum := by
    refine (list_abs_sum_le _ _).trans ?_
    have : 2 * (Q.map (fun q => |g q|)).sum = (Q.map (fun q => 2 * |g q| + 0)).sum := by rw [list_sum_map_affine]; ring
    rw [this]
    apply list_sum_map_le
    intro q hq
    rw [abs_mul, add_zero, mul_comm]
    exact mul_le_mul_of_nonneg_right (hl q hq) (abs_nonneg _)
  have hLs : |(Q.map (fun q => l q ^ 2)).sum - 1| ≤ 1 / 100 := by
    refine hL.trans ?_
    calc ((m : ℚ) + 2) * 2 ^ (-48 : ℤ) ≤ (2 ^ 20 + 2) * 2 ^ (-48 : ℤ) := by gcongr
      _ ≤ 1 / 100 := by norm_num
  have hmin := fun t => lineDist_min Q g l (by linarith only [(abs_le.1 hLs).1]) t
  obtain ⟨N, hNd⟩ : ∃ N, N = (Q.map (fun q => g q * l q)).sum := ⟨_, rfl⟩
  obtain ⟨L, hLd⟩ : ∃ L, L = (Q.map (fun q => l q ^ 2)).sum := ⟨_, rfl⟩
  obtain ⟨B, hBd⟩ : ∃ B, B = (Q.map (fun q => |g q|)).sum + 2 ^ (-1000 : ℤ) := ⟨_, rfl⟩
  obtain ⟨u, hud⟩ : ∃ u : ℚ, u = 1 / 2 ^ 53 := ⟨_, rfl⟩
  obtain ⟨η, hηd⟩ : ∃ η : ℚ, η = 2 ^ (-1075 : ℤ) := ⟨_, rfl⟩
  have hu0 : 0 < u := by rw [hud]; norm_num
  have hB0 : 0 < B := by have := two_zpow_pos (-1000); rw [hBd]; linarith
  have hAB : (Q.map (fun q => |g q|)).sum ≤ B := by have := two_zpow_pos (-1000); rw [hBd]; linarith
  have hBbig : B ≤ 2 ^ (452 : ℤ) := by
    have h3 : (2 : ℚ) ^ (-1000 : ℤ) ≤ 2 ^ (451 : ℤ) := two_zpow_le (by norm_num)
    have h4 : (2 : ℚ) ^ (452 : ℤ) = 2 ^ (451 : ℤ) + 2 ^ (451 : ℤ) := by rw [show (452 : ℤ) = 451 + 1 by norm_num, two_zpow_add]; ring
    rw [hBd, h4]
    exact add_le_add hAbig h3
  have hηB : 2 ^ 22 * η ≤ u * B := by
    calc 2 ^ 22 * η = u * 2 ^ (-1000 : ℤ) := by
          rw [hηd, hud, show (-1075 : ℤ) = -75 + -1000 by norm_num, two_zpow_add]
          generalize (2 : ℚ) ^ (-1000 : ℤ) = z
          norm_num
          ring
      _ ≤ u * B := by
          refine mul_le_mul_of_nonneg_left ?_ hu0.le
          rw [hBd]
          linarith
  have hηu : 2 ^ 24 * η ≤ u := by
    calc 2 ^ 24 * η = 2 ^ (-1051 : ℤ) := by rw [hηd, show (-1051 : ℤ) = 24 + -1075 by norm_num, two_zpow_add]; norm_num
      _ ≤ 2 ^ (-53 : ℤ) := two_zpow_le (by norm_num)
      _ = u := by rw [hud]; norm_num
  have hη0' : 0 ≤ η := by rw [hηd]; exact hη0.le
  have hmη : (m : ℚ) * η ≤ 2 ^ 20 * η := mul_le_mul_of_nonneg_right hmQ hη0'
  obtain ⟨w, hwd⟩ : ∃ w : ℚ, w = m ^ 2 * u := ⟨_, rfl⟩
  have hmm : (m : ℚ) ≤ m ^ 2 := by nlinarith
  have hmu : (m : ℚ) * u ≤ w := by rw [hwd]; exact mul_le_mul_of_nonneg_right hmm hu0.le
  have huw : u ≤ w := by
    refine le_trans ?_ hmu
    nlinarith
  have hw0 : 0 ≤ w := hu0.le.trans huw
  have hw1 : w ≤ 1 / 8192 := by
    rw [hwd, hud]
    calc (m : ℚ) ^ 2 * (1 / 2 ^ 53) ≤ (2 ^ 20) ^ 2 * (1 / 2 ^ 53) := by gcongr
      _ ≤ 1 / 8192 := by norm_num
  have hB1 : |r1 - N| ≤ 36 * w * B := by
    rw [← hNd] at b1
    refine b1.trans ?_
    rw [← hηd]
    have h3 : (4 * (m : ℚ) + 28) / 2 ^ 53 * (Q.map (fun q => |g q|)).sum ≤ 32 * (m * u) * B := by
      rw [show (4 * (m : ℚ) + 28) / 2 ^ 53 = (4 * m + 28) * u by rw [hud]; ring]
      refine mul_le_mul ?_ hAB hA0 (by positivity)
      nlinarith
    have h4 : (m * u) * B ≤ w * B := mul_le_mul_of_nonneg_right hmu hB0.le
    have h5 : u * B ≤ w * B := mul_le_mul_of_nonneg_right huw hB0.le
    linarith
  have hB2 : |r2 - L| ≤ 65 * w := by
    rw [← hLd] at b2
    refine b2.trans ?_
    rw [← hηd]
    have h3 : (4 * (m : ℚ) + 28) / 2 ^ 53 * (Q.map (fun q => |l q|)).sum ≤ (4 * m + 28) * u * (2 * m) := by
      rw [show (4 * (m : ℚ) + 28) / 2 ^ 53 = (4 * m + 28) * u by rw [hud]; ring]
      exact mul_le_mul_of_nonneg_left hlsum (by positivity)
    have h4 : (4 * (m : ℚ) + 28) * u * (2 * m) = 8 * w + 56 * (m * u) := by rw [hwd]; ring
    linarith only [h3, h4, hmu, huw, hmη, hηu]
  rw [← hLd] at hLs
  rw [← hNd] at hN
  obtain ⟨hr0, hc1, hc2, hc3⟩ := coeff_err hB0.le hw0 hw1 hLs (hN.trans (by linarith)) hB1 hB2
  -- the coefficient
  obtain ⟨k, hkd⟩ : ∃ k, k = roundQ (r1 / r2) := ⟨_, rfl⟩
  have hdiv : div (.fin r1) (.fin r2) = .fin k := by
    show (if r2 = 0 then _ else roundD (r1 / r2)) = _
    rw [if_neg hr0.ne', hkd]
    refine roundD_small (k := 454) (by norm_num) (by norm_num) (hc3.trans ?_)
    rw [show (454 : ℤ) = 2 + 452 by norm_num, two_zpow_add]
    calc 22 / 10 * B ≤ 2 ^ (2 : ℤ) * B := mul_le_mul_of_nonneg_right (by norm_num) hB0.le
      _ ≤ _ := mul_le_mul_of_nonneg_left hBbig (by norm_num)
  have hk : |k - N / L| ≤ 207 * w * B := by
    have h3 := (roundQ_err (r1 / r2)).1
    rw [← hkd, ← hηd] at h3
    have h4 := abs_add_le (k - r1 / r2) (r1 / r2 - N / L)
    rw [sub_add_sub_cancel] at h4
    have h5 : |r1 / r2| / 2 ^ 53 ≤ 22 / 10 * B * u := by
      rw [hud, mul_one_div]
      exact div_le_div_of_nonneg_right hc3 (by positivity)
    have h6 : u * B ≤ w * B := mul_le_mul_of_nonneg_right huw hB0.le
    have h7 : 22 / 10 * B * u = 22 / 10 * (u * B) := by ring
    linarith
  -- the squares
  have hkb : |k| ≤ 22 / 10 * B := by
    have h3 := abs_add_le (k - N / L) (N / L)
    rw [sub_add_cancel] at h3
    have h4 : w * B ≤ 1 / 8192 * B := mul_le_mul_of_nonneg_right hw1 hB0.le
    linarith
  have hsq : ∀ q ∈ Q, ∃ s : ℚ, mul (mulAdd fused (neg (.fin k)) (.fin (l q)) (.fin (f q))) (mulAdd fused (neg (.fin k)) (.fin (l q)) (.fin (f q))) = .fin s ∧ IsBinary53 s ∧ 0 ≤ s ∧
      |s - (g q - N / L * l q) ^ 2| ≤ 5000 * w * B ^ 2 + η ∧ s ≤ 36 * B ^ 2 + η := by
    intro q hq
    have hfb : |f q| ≤ 2 * B := by
      have h3 := abs_add_le (f q - g q) (g q)
      rw [sub_add_cancel] at h3
      have h4 := (hf q hq).1
      rw [← hηd] at h4
      have h5 : (7 : ℚ) / 2 ^ 53 * |g q| ≤ 1 / 4 * |g q| := mul_le_mul_of_nonneg_right (by norm_num) (abs_nonneg _)
      have h6 := (hgA q hq).trans hAB
      have h7 : u * B ≤ 1 / 8192 * B := mul_le_mul_of_nonneg_right (huw.trans hw1) hB0.le
      linarith
    have hklb : |-k * l q| ≤ 44 / 10 * B := by
      rw [abs_mul, abs_neg]
      calc |k| * |l q| ≤ 22 / 10 * B * 2 := mul_le_mul hkb (hl q hq) (abs_nonneg _) (by linarith)
        _ = _ := by ring
    have h1022 : (2 : ℚ) ^ (4 : ℤ) * 2 ^ (452 : ℤ) ≤ 2 ^ (1022 : ℤ) := by rw [← two_zpow_add]; exact two_zpow_le (by norm_num)
    have h16 : (2 : ℚ) ^ (4 : ℤ) * B ≤ 2 ^ (4 : ℤ) * 2 ^ (452 : ℤ) := mul_le_mul_of_nonneg_left hBbig (by norm_num)
    obtain ⟨x, x1, x2, x3⟩ := mulAdd_err fused (x := -k) (y := l q) (z := f q) (by
      refine le_trans ?_ (h16.trans h1022)
      rw [show (2 : ℚ) ^ (4 : ℤ) = 16 by norm_num]
      linarith only [hfb, hklb, hB0])
    have hxb : |x| ≤ 7 * B := by
      have h3 := abs_add_le (x - (f q + -k * l q)) (f q + -k * l q)
      rw [sub_add_cancel] at h3
      have h4 := abs_add_le (f q) (-k * l q)
      have h5 : |f q| / 2 ^ 53 ≤ 1 / 100 * |f q| := by rw [div_eq_mul_one_div, mul_comm]; exact mul_le_mul_of_nonneg_right (by norm_num) (abs_nonneg _)
      have h6 : |-k * l q| / 2 ^ 53 ≤ 1 / 100 * |-k * l q| := by rw [div_eq_mul_one_div, mul_comm]; exact mul_le_mul_of_nonneg_right (by norm_num) (abs_nonneg _)
      rw [← hηd] at x3
      have h7 : u * B ≤ 1 / 8192 * B := mul_le_mul_of_nonneg_right (huw.trans hw1) hB0.le
      linarith
    have hx2b : |x * x| ≤ 2 ^ (912 : ℤ) := by
      rw [abs_mul]
      have h3 : |x| ≤ 2 ^ (456 : ℤ) := by
        refine hxb.trans ?_
        rw [show (456 : ℤ) = 4 + 452 by norm_num, two_zpow_add]
        refine le_trans ?_ h16
        exact mul_le_mul_of_nonneg_right (by norm_num) hB0.le
      calc |x| * |x| ≤ 2 ^ (456 : ℤ) * 2 ^ (456 : ℤ) := mul_le_mul h3 h3 (abs_nonneg _) (two_zpow_pos _).le
        _ = 2 ^ (912 : ℤ) := by rw [← two_zpow_add]; norm_num
    have hmul : mul (.fin x) (.fin x) = .fin (roundQ (x * x)) := roundD_small (k := 912) (by norm_num) (by norm_num) hx2b
    have hx0 : 0 ≤ x * x := mul_self_nonneg x
    have hs3 := (roundQ_err (x * x)).1
    obtain ⟨s, hsd⟩ : ∃ s, s = roundQ (x * x) := ⟨_, rfl⟩
    have hneg : neg (.fin k) = .fin (-k) := rfl
    have hfe := (hf q hq).1
    rw [← hsd, ← hηd, show |x * x| / 2 ^ 53 = |x * x| * u by rw [hud]; ring] at hs3
    rw [← hηd, show |f q| / 2 ^ 53 = |f q| * u by rw [hud]; ring, show |-k * l q| / 2 ^ 53 = |-k * l q| * u by rw [hud]; ring] at x3
    rw [← hηd, show (7 : ℚ) / 2 ^ 53 * |g q| = 7 * u * |g q| by rw [hud]; ring] at hfe
    obtain ⟨y1, y2⟩ := square_err hB0.le hu0.le huw hw1 hη0' (by linarith) hk hc2 (hl q hq) ((hgA q hq).trans hAB) hfe x3 hs3
    refine ⟨s, by rw [hneg, x1, hmul, hsd], by rw [hsd]; exact roundQ_binary53 _, by rw [hsd]; exact le_roundQ_of_binary53 hx0 isBinary53_zero, y1, y2⟩
  choose! s hs1 hs2 hs3 hs4 hs5 using hsq
  have hlist : List.zipWith (fun l p => mul (mulAdd fused (neg (.fin k)) l p) (mulAdd fused (neg (.fin k)) l p)) (Q.map (fun q => .fin (l q))) (Q.map (fun q => .fin (f q))) = Q.map (fun q => .fin (s q)) := by
    rw [List.zipWith_map, List.zipWith_self]
    exact List.map_congr_left hs1
  have hBB : 36 * B ^ 2 + η ≤ 2 ^ (912 : ℤ) := by
    have h3 : B ^ 2 ≤ 2 ^ (904 : ℤ) := by
      calc B ^ 2 = B * B := by ring
        _ ≤ 2 ^ (452 : ℤ) * 2 ^ (452 : ℤ) := mul_le_mul hBbig hBbig hB0.le (two_zpow_pos _).le
        _ = _ := by rw [← two_zpow_add]; norm_num
    have h4 : η ≤ 2 ^ (904 : ℤ) := by rw [hηd]; exact two_zpow_le (by norm_num)
    have h5 : (2 : ℚ) ^ (912 : ℤ) = 2 ^ (8 : ℤ) * 2 ^ (904 : ℤ) := by rw [← two_zpow_add]; norm_num
    have hp := two_zpow_pos 904
    rw [h5]
    generalize (2 : ℚ) ^ (904 : ℤ) = X at *
    norm_num
    linarith only [h3, h4, hp]
  obtain ⟨t, et, -, S0, S1, tl, tu⟩ := reduceSum_bound (M := 36 * B ^ 2 + η) (by
      refine (mul_le_mul_of_nonneg_left hBB (by norm_num)).trans ?_
      rw [show (2 : ℚ) ^ 43 = 2 ^ (43 : ℤ) by norm_num, ← two_zpow_add]
      exact two_zpow_le (by norm_num)) (hsum (Q.map (fun q => .fin (s q)))) (by simp [hQ]; omega) (by
    intro x hx
    rcases List.mem_cons.1 hx with rfl | hx
    · exact ⟨0, rfl, isBinary53_zero, le_rfl, by positivity⟩
    · obtain ⟨q, hq, rfl⟩ := List.mem_map.1 hx
      exact ⟨_, rfl, hs2 q hq, hs3 q hq, hs5 q hq⟩)
  have hS : ((Dbl.fin 0 :: Q.map (fun q => Dbl.fin (s q))).map Dbl.val).sum = (Q.map s).sum := by
    rw [List.map_cons, List.sum_cons, List.map_map]
    show 0 + (Q.map s).sum = _
    rw [zero_add]
  have hlen : (Dbl.fin 0 :: Q.map (fun q => Dbl.fin (s q))).length = m + 1 := by simp [hQ]
  rw [hS] at S0 tl tu
  rw [hlen] at tl tu
  have hSm : (Q.map s).sum ≤ m * (36 * B ^ 2 + η) := by
    calc (Q.map s).sum ≤ (Q.map (fun q => 0 * s q + (36 * B ^ 2 + η))).sum := list_sum_map_le _ _ _ (fun q hq => by have := hs5 q hq; linarith)
      _ = _ := by rw [list_sum_map_affine, hQ]; ring
  have hSe := list_sum_abs_sub_le Q s (fun q => (g q - N / L * l q) ^ 2) (5000 * w * B ^ 2 + η) hs4
  rw [hQ] at hSe
  refine ⟨t, (Q.map (fun q => (g q - N / L * l q) ^ 2)).sum, ?_, ⟨⟨N / L, ?_⟩, ?_⟩, ?_⟩
  · unfold perpendicularDistanceSqD
    rw [if_pos (by simp), innerProductD_swap fused Q f l, e1, e2]
    simp only [hdiv, hlist, et]
  · unfold distSqAt
    rw [List.zipWith_map, List.zipWith_self]
  · intro t'
    unfold distSqAt
    rw [List.zipWith_map, List.zipWith_self, hNd, hLd]
    exact hmin t'
  · rw [← hBd, ← hηd]
    have hp1 := one_add_pow_le hu0.le (m + 1) (by
      push_cast
      rw [hud]
      calc 2 * ((m : ℚ) + 1) * (1 / 2 ^ 53) ≤ 2 * (2 ^ 20 + 1) * (1 / 2 ^ 53) := by gcongr
        _ ≤ 1 := by norm_num)
    have hp2 := le_one_sub_pow (show u ≤ 1 by rw [hud]; norm_num) (m + 1)
    rw [← hud] at tl tu
    push_cast at hp1 hp2
    rw [show 5200 * (m : ℚ) ^ 3 / 2 ^ 53 * B ^ 2 = 5200 * (m * (w * B ^ 2)) by rw [hwd, hud]; ring]
    exact distSum_err hm1 hu0.le hw0 hw1 hη0' (show (m : ℚ) * (m * u) = w by rw [hwd]; ring) S0 hSm hSe ((mul_le_mul_of_nonneg_right hp2 S0).trans tl) (tu.trans (mul_le_mul_of_nonneg_right hp1 S0))

/-- The stored distance. -/
theorem associateOneD_dist (fl : MultiFlags) (hsum : ReduceContract fl.sum) (m : Nat) (h0 : 0 < m) (hm : m ≤ 2 ^ 20) (lines : List (List Dbl)) (ideal nadir row : List Dbl) (h1 : row.length = m)
    (h2 : ideal.length = m) (h3 : nadir.length = m) (hrow : ∀ x ∈ row, Moderate x) (hideal : ∀ x ∈ ideal, Moderate x) (hnadir : ∀ x ∈ nadir, Moderate x) (i : Nat) (d : Dbl)
    (h : associateOneD fl lines ideal nadir row = some (i, d)) (line : List Dbl) (hi : lines[i]? = some line) (hline : NearUnit m line) (hunit : ∀ l ∈ line, UnitEntry l) :
    NearlyLineDistSq m line ideal nadir row d := by
  set T := row.zip (ideal.zip nadir) with hT
  set fd : Dbl × Dbl × Dbl → Dbl := fun t => divR fl.recip (sub t.2.1 t.1) (Dbl.max (sub t.2.1 t.2.2) eps8D) with hfd
  set g : Dbl × Dbl × Dbl → ℚ := fun t => (Dbl.val t.2.1 - Dbl.val t.1) / max (Dbl.val t.2.1 - Dbl.val t.2.2) smallestRange with hg
  have hTl : T.length = m := by rw [hT, List.length_zip, List.length_zip]; omega
  have hnorm : normalizedQ ideal nadir row = T.map g := by rw [hT, List.map_zip_eq_zipWith]; rfl
  have herr : ∀ t ∈ T, fd t = .fin (Dbl.val (fd t)) ∧ |Dbl.val (fd t) - g t| ≤ 7 / 2 ^ 53 * |g t| + 2 ^ (-1075 : ℤ) ∧ |Dbl.val (fd t)| ≤ 2 ^ (430 : ℤ) := by
    rintro ⟨x, a, b⟩ ht
    have h4 := (List.of_mem_zip ht).1
    have h5 := List.of_mem_zip (List.of_mem_zip ht).2
    obtain ⟨f, e1, e2, e3⟩ := normalized_err fl.recip (hrow x h4) (hideal a h5.1) (hnadir b h5.2)
    have e0 : fd (x, a, b) = .fin f := e1
    rw [e0]
    exact ⟨rfl, e2, e3⟩
  have hfn : normalizeFitnessVecD fl.recip row ideal nadir = some (T.map (fun t => .fin (Dbl.val (fd t)))) := by
    unfold normalizeFitnessVecD
    rw [if_pos ⟨by omega, by omega⟩]
    congr 1
    rw [show T.map (fun t => Dbl.fin (Dbl.val (fd t))) = T.map fd from List.map_congr_left (fun t ht => (herr t ht).1.symm), hT, List.map_zip_eq_zipWith]
    rfl
  have hll := hline.length
  set Q := T.zip line with hQ
  have hQ1 : ∀ {γ : Type} (f : Dbl × Dbl × Dbl → γ), Q.map (fun q => f q.1) = T.map f := by
    intro γ f
    have : Q.map (fun q => f q.1) = (Q.map Prod.fst).map f := by rw [List.map_map]; rfl
    rw [this, hQ, List.map_fst_zip (by omega)]
  have hQ2 : ∀ {γ : Type} (f : Dbl → γ), Q.map (fun q => f q.2) = line.map f := by
    intro γ f
    have : Q.map (fun q => f q.2) = (Q.map Prod.snd).map f := by rw [List.map_map]; rfl
    rw [this, hQ, List.map_snd_zip (by omega)]
  have hlf : line.map (fun x => Dbl.fin (Dbl.val x)) = line := by
    conv_rhs => rw [← List.map_id line]
    refine List.map_congr_left (fun x hx => ?_)
    obtain ⟨q, e, -⟩ := hunit x hx
    rw [e]
    rfl
  obtain ⟨t, e, he, hd, hb⟩ := perpendicularDistanceSqD_err fl.fused fl.sum hsum Q (fun q => Dbl.val (fd q.1)) (fun q => g q.1) (fun q => Dbl.val q.2) m (by rw [hQ, List.length_zip]; omega) h0 hm (by
      intro q hq
      obtain ⟨l, e, hl⟩ := hunit q.2 (List.of_mem_zip hq).2
      rw [e]
      exact hl) (by
      rw [hQ2 (fun x => Dbl.val x ^ 2)]
      exact hline.norm) (fun q hq => (herr q.1 (List.of_mem_zip hq).1).2)
  rw [hQ2 (fun x => Dbl.fin (Dbl.val x)), hlf, hQ1 (fun t => Dbl.fin (Dbl.val (fd t)))] at he
  rw [hQ2 Dbl.val, hQ1 g] at hd
  rw [hQ1 (fun t => |g t|)] at hb
  unfold associateOneD at h
  rw [hfn] at h
  simp only [Option.bind_eq_bind, Option.bind_some] at h
  obtain ⟨b, hb1, hb2⟩ := Option.bind_eq_some_iff.mp h
  obtain ⟨dist, hd1, hd2⟩ := Option.bind_eq_some_iff.mp hb2
  obtain ⟨hi', hd'⟩ := Prod.mk.inj (Option.some.inj hd2)
  rw [hi', hi] at hb1
  obtain rfl := Option.some.inj hb1
  rw [he] at hd1
  obtain rfl := Option.some.inj hd1
  refine ⟨t, e, hd'.symm, by rw [hnorm]; exact hd, ?_⟩
  rw [hnorm, show sizeQ (T.map g) = (T.map (fun t => |g t|)).sum by unfold sizeQ; rw [List.map_map]; rfl]
  exact hb

end Gapp.ListAux
