import Verif.Proofs.DoubleUnitLines
import Verif.Proofs.DblOrder
import Verif.Proofs.RefLines
import Verif.Spec.DoubleSimplexMaps
/-!
# Proofs about the other mappings to the simplex and the sparse subset in binary64 arithmetic
-/

namespace Gapp.ListAux
open Gapp.Model Gapp.Spec Dbl

/-! ## The root mapping -/

/-- The exponent is accurate. -/
theorem rootExponentD_spec (n : Nat) (h0 : 0 < n) (hn : n ≤ 2 ^ 41) : ∃ e : ℚ, rootExponentD n = .fin e ∧ 0 ≤ e ∧ |e - 1 / n| ≤ 2 ^ (-52 : ℤ) := by
  have h1 : (1 : ℚ) ≤ n := by exact_mod_cast h0
  have hnQ : (n : ℚ) ≤ 2 ^ 41 := by exact_mod_cast hn
  have hb : IsBinary53 (n : ℚ) := ⟨n, 0, by rw [abs_of_nonneg (by positivity)]; exact_mod_cast hn.trans (by norm_num), by norm_num, by simp⟩
  have e1 : roundD (n : ℚ) = .fin n := by
    rw [roundD_small (k := 41) (by norm_num) (by norm_num) (by rw [abs_of_nonneg (by positivity)]; exact_mod_cast hn), roundQ_of_binary53 hb]
  have hle : 1 / (n : ℚ) ≤ 1 := by rw [div_le_one (by positivity)]; exact h1
  have hp : 0 < 1 / (n : ℚ) := by positivity
  refine ⟨roundQ (1 / n), ?_, le_roundQ_of_binary53 hp.le isBinary53_zero, ?_⟩
  · unfold rootExponentD
    rw [e1]
    show (if (n : ℚ) = 0 then _ else roundD (1 / n)) = _
    rw [if_neg (by positivity), roundD_small (k := 0) (by norm_num) (by norm_num) (by rw [abs_of_pos hp]; simpa using hle)]
  · have e := (roundQ_err (1 / (n : ℚ))).1
    rw [abs_of_pos hp] at e
    have e2 : 1 / (n : ℚ) / 2 ^ 53 ≤ 1 / 2 ^ 53 := by gcongr
    have e3 : (2 : ℚ) ^ (-1075 : ℤ) ≤ 2 ^ (-53 : ℤ) := two_zpow_le (by norm_num)
    refine e.trans ((add_le_add e2 e3).trans ?_)
    norm_num

theorem rootExponentD_nonneg (n : Nat) (h0 : 0 < n) (hn : n ≤ 2 ^ 41) : Dbl.le (.fin 0) (rootExponentD n) = true := by
  obtain ⟨e, h, h1, -⟩ := rootExponentD_spec n h0 hn
  rw [h]
  exact decide_eq_true h1

/-- The values of the loop of the root mapping decrease. -/
theorem rootLoopD_spec (pow : Dbl → Dbl → Dbl) (hpow : PowInUnit pow) : ∀ (l : List Dbl) (v : ℚ), l.length ≤ 2 ^ 40 → IsBinary53 v → 0 ≤ v → v ≤ 1 → (∀ p ∈ l, DblBetween p 0 1) →
    ∃ q : List ℚ, rootLoopD pow (.fin v) l = q.map .fin ∧ q.length = l.length ∧ (v :: q).IsChain (fun a b => b ≤ a) ∧ ∀ y ∈ q, IsBinary53 y ∧ 0 ≤ y ∧ y ≤ 1 := by
  intro l
  induction l with
  | nil => intro v _ _ _ _ _; exact ⟨[], rfl, rfl, .singleton _, by simp⟩
  | cons p l ih =>
    intro v hn hv v0 v1 hall
    rw [List.length_cons] at hn
    obtain ⟨w, ew, hw, w0, w1⟩ := hpow p (rootExponentD (l.length + 1)) (hall p List.mem_cons_self) (rootExponentD_nonneg _ (by omega) (by omega))
    have hle : v * w ≤ v := mul_le_of_le_one_right v0 w1
    have h0 : 0 ≤ v * w := mul_nonneg v0 w0
    have em : mul (.fin v) (.fin w) = .fin (roundQ (v * w)) := roundD_small (k := 0) (by norm_num) (by norm_num) (by rw [abs_of_nonneg h0]; simpa using hle.trans v1)
    have r1 : roundQ (v * w) ≤ v := roundQ_le_of_binary53 hle hv
    have r0 : 0 ≤ roundQ (v * w) := le_roundQ_of_binary53 h0 isBinary53_zero
    obtain ⟨q, e, hl, hc, hq⟩ := ih (roundQ (v * w)) (by omega) (roundQ_binary53 _) r0 (r1.trans v1) (fun x hx => hall x (List.mem_cons_of_mem _ hx))
    refine ⟨roundQ (v * w) :: q, ?_, by simp [hl], List.IsChain.cons_cons r1 hc, ?_⟩
    · rw [rootLoopD, ew, em, e]
      rfl
    · intro y hy
      rcases List.mem_cons.1 hy with rfl | hy
      · exact ⟨roundQ_binary53 _, r0, r1.trans v1⟩
      · exact hq y hy

/-- The element of the loop of the root mapping at each position. -/
theorem rootLoopD_get (pow : Dbl → Dbl → Dbl) : ∀ (l : List Dbl) (v : Dbl) (j : Nat) (p y : Dbl), l[j]? = some p → (v :: rootLoopD pow v l)[j]? = some y →
    (v :: rootLoopD pow v l)[j + 1]? = some (mul y (pow p (rootExponentD (l.length - j)))) := by
  intro l
  induction l with
  | nil => intro v j p y h; simp at h
  | cons x l ih =>
    intro v j p y hp hy
    cases j with
    | zero =>
      cases hp
      cases hy
      rfl
    | succ j =>
      have := ih (mul v (pow x (rootExponentD (l.length + 1)))) j p y hp hy
      rw [show (x :: l).length - (j + 1) = l.length - j by simp]
      exact this

theorem rootLoopD_length (pow : Dbl → Dbl → Dbl) : ∀ (l : List Dbl) (v : Dbl), (rootLoopD pow v l).length = l.length := by
  intro l
  induction l with
  | nil => intro v; rfl
  | cons x l ih => intro v; simp [rootLoopD, ih]

theorem simplexMappingRootD_spec (pow : Dbl → Dbl → Dbl) (hpow : PowInUnit pow) (point : List Dbl) (hn : point.length ≤ 2 ^ 40) (h : ∀ p ∈ point, DblBetween p 0 1) :
    ∃ x, simplexMappingRootD pow point = some (adjacentDifferenceD (x ++ [.fin 1])) ∧ x.length = point.length ∧
      (∀ (i : Nat) (p : Dbl), point[i]? = some p → ∃ e : ℚ, |e - 1 / (i + 1)| ≤ 2 ^ (-52 : ℤ) ∧
        (i + 1 = point.length → x[i]? = some (pow p (.fin e))) ∧ (∀ y, x[i + 1]? = some y → x[i]? = some (mul y (pow p (.fin e))))) ∧
      NearSimplex (point.length + 1) (adjacentDifferenceD (x ++ [.fin 1])) ∧ ∀ r ∈ adjacentDifferenceD (x ++ [.fin 1]), DblBetween r 0 1 := by
  have hsimplex : ∀ q : List ℚ, q.length = point.length → (∀ y ∈ q, IsBinary53 y ∧ 0 ≤ y ∧ y ≤ 1) → q.IsChain (· ≤ ·) →
      NearSimplex (point.length + 1) (adjacentDifferenceD (q.map .fin ++ [.fin 1])) ∧ ∀ r ∈ adjacentDifferenceD (q.map .fin ++ [.fin 1]), DblBetween r 0 1 := by
    intro q hql hq hc
    have e1 : q.map Dbl.fin ++ [.fin 1] = (q ++ [1]).map .fin := by simp
    rw [e1]
    obtain ⟨a, b, c⟩ := adjacentDifferenceD_simplex 0 1 le_rfl isBinary53_zero (by positivity) (by norm_num) (q ++ [1]) (by simp; omega)
      (by
        intro y hy
        rcases List.mem_append.1 hy with hy | hy
        · exact hq y hy
        · rw [List.mem_singleton.1 hy]; exact ⟨isDouble_one'.1, by norm_num, le_rfl⟩)
      (by
        rw [List.isChain_append]
        refine ⟨hc.imp (fun a b hab => by linarith), .singleton _, ?_⟩
        intro y hy z hz
        simp only [List.head?_cons, Option.mem_def, Option.some.injEq] at hz
        subst hz
        have := (hq y (List.mem_of_mem_getLast? hy)).2.2
        linarith) (by simp)
    refine ⟨⟨by rw [a]; simp [hql], fun x hx => ?_, c⟩, fun x hx => ?_⟩
    · obtain ⟨y, e, d, l, u⟩ := b x hx
      exact ⟨y, e, d, le_trans (by simp) l, by linarith⟩
    · have := b x hx
      rwa [neg_zero] at this
  unfold simplexMappingRootD
  rw [if_pos (inUnitCubeD_of _ h)]
  cases hrev : point.reverse with
  | nil =>
    have hp : point = [] := by simpa using hrev
    subst hp
    exact ⟨[], rfl, rfl, by simp, hsimplex [] rfl (by simp) .nil⟩
  | cons p rest =>
    have hlen : rest.length + 1 = point.length := by
      have := congrArg List.length hrev
      simp only [List.length_reverse, List.length_cons] at this
      omega
    have hmem : ∀ x ∈ p :: rest, DblBetween x 0 1 := fun x hx => h x (by rw [← List.mem_reverse, hrev]; exact hx)
    obtain ⟨w, ew, hw, w0, w1⟩ := hpow p (rootExponentD (rest.length + 1)) (hmem p List.mem_cons_self) (rootExponentD_nonneg _ (by omega) (by omega))
    obtain ⟨q, eq, hql, hc, hq⟩ := rootLoopD_spec pow hpow rest w (by omega) hw.1 w0 w1 (fun x hx => hmem x (List.mem_cons_of_mem _ hx))
    refine ⟨(pow p (rootExponentD (rest.length + 1)) :: rootLoopD pow (pow p (rootExponentD (rest.length + 1))) rest).reverse, rfl, ?_, ?_, ?_⟩
    · rw [List.length_reverse, List.length_cons, rootLoopD_length, hlen]
    · intro i z hi
      have hil := (List.getElem?_eq_some_iff.1 hi).1
      obtain ⟨e, he, -, herr⟩ := rootExponentD_spec (i + 1) (by omega) (by omega)
      push_cast at herr
      refine ⟨e, herr, ?_, ?_⟩
      · intro hlast
        have e1 : i = rest.length := by omega
        subst e1
        have hz : z = p := by
          have : (point.reverse)[0]? = some z := by
            rw [List.getElem?_reverse (by omega), ← hi]
            congr 1
            omega
          rw [hrev] at this
          simpa using this.symm
        rw [List.getElem?_reverse (by simp [rootLoopD_length])]
        simp only [List.length_cons, rootLoopD_length]
        rw [show rest.length + 1 - 1 - rest.length = 0 by omega, List.getElem?_cons_zero, he, hz]
      · intro y hy
        have hil2 := (List.getElem?_eq_some_iff.1 hy).1
        rw [List.length_reverse, List.length_cons, rootLoopD_length] at hil2
        rw [List.getElem?_reverse (by rw [List.length_cons, rootLoopD_length]; omega), List.length_cons, rootLoopD_length] at hy
        rw [List.getElem?_reverse (by rw [List.length_cons, rootLoopD_length]; omega), List.length_cons, rootLoopD_length]
        have hz : rest[rest.length + 1 - 1 - (i + 1)]? = some z := by
          have : (point.reverse)[point.length - 1 - i]? = some z := by
            rw [List.getElem?_reverse (by omega), ← hi]
            congr 1
            omega
          rw [hrev, show point.length - 1 - i = (rest.length + 1 - 1 - (i + 1)) + 1 by omega, List.getElem?_cons_succ] at this
          exact this
        have := rootLoopD_get pow rest _ _ z y hz hy
        rw [show rest.length - (rest.length + 1 - 1 - (i + 1)) = i + 1 by omega, he] at this
        rw [show rest.length + 1 - 1 - i = rest.length + 1 - 1 - (i + 1) + 1 by omega]
        exact this
    · rw [ew, eq]
      have e2 : (Dbl.fin w :: q.map .fin).reverse = ((w :: q).reverse).map .fin := by simp
      rw [e2]
      refine hsimplex _ (by simp; omega) ?_ ?_
      · intro y hy
        rw [List.mem_reverse] at hy
        rcases List.mem_cons.1 hy with rfl | hy
        · exact ⟨hw.1, w0, w1⟩
        · exact hq y hy
      · rw [List.isChain_reverse]
        exact hc

/-! ## Sums in any order -/

theorem one_add_pow_le {u : ℚ} (hu : 0 ≤ u) : ∀ n : Nat, 2 * n * u ≤ 1 → (1 + u) ^ n ≤ 1 + 2 * n * u := by
  intro n
  induction n with
  | zero => intro _; simp
  | succ n ih =>
    intro h
    push_cast at h ⊢
    have h1 := ih (by nlinarith)
    have h2 : (1 + u) ^ (n + 1) ≤ (1 + 2 * n * u) * (1 + u) := by rw [pow_succ]; gcongr
    refine h2.trans ?_
    have h3 : 2 * (n : ℚ) * u * u ≤ 1 * u := by gcongr; linarith
    nlinarith

theorem le_one_sub_pow {u : ℚ} (hu : u ≤ 1) (n : Nat) : 1 - n * u ≤ (1 - u) ^ n := by
  have := one_add_mul_le_pow (a := -u) (by linarith) n
  rw [show (1 : ℚ) + -u = 1 - u by ring, show (1 : ℚ) + n * -u = 1 - n * u by ring] at this
  exact this

theorem pow_one_add_le_two (n : Nat) (hn : n ≤ 2 ^ 42) : (1 + 1 / 2 ^ 53 : ℚ) ^ n ≤ 2 := by
  have hnQ : (n : ℚ) ≤ 2 ^ 42 := by exact_mod_cast hn
  have h : 2 * (n : ℚ) * (1 / 2 ^ 53) ≤ 1 := by
    calc 2 * (n : ℚ) * (1 / 2 ^ 53) ≤ 2 * 2 ^ 42 * (1 / 2 ^ 53) := by gcongr
      _ ≤ 1 := by norm_num
  have := one_add_pow_le (u := 1 / 2 ^ 53) (by norm_num) n h
  linarith

/-- The rounding error of a sum of two numbers that are not negative. -/
theorem round_add_bounds {a b : ℚ} (ha : IsBinary53 a) (hb : IsBinary53 b) (a0 : 0 ≤ a) (b0 : 0 ≤ b) :
    (1 - 1 / 2 ^ 53) * (a + b) ≤ roundQ (a + b) ∧ roundQ (a + b) ≤ (1 + 1 / 2 ^ 53) * (a + b) := by
  have h := roundQ_err_sum ha (isBinary53_neg hb)
  rw [sub_neg_eq_add, abs_of_nonneg (show 0 ≤ a + b by linarith)] at h
  have h' := abs_le.1 h
  constructor
  · linarith [h'.1]
  · linarith [h'.2]

/-- The induction step of the bounds. -/
theorem combine_bounds {u a b S1 S2 r : ℚ} {n1 n2 : Nat} (hu : 0 ≤ u) (hu1 : u ≤ 1) (h1 : 0 < n1) (h2 : 0 < n2) (s1 : 0 ≤ S1) (s2 : 0 ≤ S2)
    (ha : (1 - u) ^ n1 * S1 ≤ a ∧ a ≤ (1 + u) ^ n1 * S1) (hb : (1 - u) ^ n2 * S2 ≤ b ∧ b ≤ (1 + u) ^ n2 * S2) (hr : (1 - u) * (a + b) ≤ r ∧ r ≤ (1 + u) * (a + b)) :
    (1 - u) ^ (n1 + n2) * (S1 + S2) ≤ r ∧ r ≤ (1 + u) ^ (n1 + n2) * (S1 + S2) := by
  have hup : ∀ n k : Nat, n + 1 ≤ k → ∀ S : ℚ, 0 ≤ S → (1 + u) * ((1 + u) ^ n * S) ≤ (1 + u) ^ k * S := by
    intro n k hk S hS
    rw [← mul_assoc, ← pow_succ']
    exact mul_le_mul_of_nonneg_right (pow_le_pow_right₀ (by linarith) hk) hS
  have hlo : ∀ n k : Nat, n + 1 ≤ k → ∀ S : ℚ, 0 ≤ S → (1 - u) ^ k * S ≤ (1 - u) * ((1 - u) ^ n * S) := by
    intro n k hk S hS
    rw [← mul_assoc, ← pow_succ']
    exact mul_le_mul_of_nonneg_right (pow_le_pow_of_le_one (by linarith) (by linarith) hk) hS
  constructor
  · refine le_trans ?_ hr.1
    rw [mul_add, mul_add]
    refine add_le_add ((hlo n1 (n1 + n2) (by omega) S1 s1).trans ?_) ((hlo n2 (n1 + n2) (by omega) S2 s2).trans ?_)
    · exact mul_le_mul_of_nonneg_left ha.1 (by linarith)
    · exact mul_le_mul_of_nonneg_left hb.1 (by linarith)
  · refine hr.2.trans ?_
    rw [mul_add, mul_add]
    refine add_le_add (le_trans ?_ (hup n1 (n1 + n2) (by omega) S1 s1)) (le_trans ?_ (hup n2 (n1 + n2) (by omega) S2 s2))
    · exact mul_le_mul_of_nonneg_left ha.2 (by linarith)
    · exact mul_le_mul_of_nonneg_left hb.2 (by linarith)

theorem reduceSum_pos {l : List Dbl} {s : Dbl} (h : ReduceSum l s) : 0 < l.length := by
  induction h with
  | single x => simp
  | add h1 h2 hp i1 i2 => rw [hp.length_eq, List.length_append]; omega

/-- The sum of numbers between 0 and 1000. -/
theorem reduceSum_err {l : List Dbl} {s : Dbl} (h : ReduceSum l s) : l.length ≤ 2 ^ 42 → (∀ x ∈ l, DblBetween x 0 1000) →
    ∃ t : ℚ, s = .fin t ∧ IsBinary53 t ∧ 0 ≤ (l.map Dbl.val).sum ∧ (l.map Dbl.val).sum ≤ l.length * 1000 ∧
      (1 - 1 / 2 ^ 53) ^ l.length * (l.map Dbl.val).sum ≤ t ∧ t ≤ (1 + 1 / 2 ^ 53) ^ l.length * (l.map Dbl.val).sum := by
  induction h with
  | single x =>
    intro _ hx
    obtain ⟨q, rfl, hq, q0, q1⟩ := hx x (by simp)
    refine ⟨q, rfl, hq.1, by simpa [Dbl.val] using q0, by simpa [Dbl.val] using q1, ?_, ?_⟩
    · simp only [List.length_singleton, pow_one, List.map_cons, List.map_nil, List.sum_cons, List.sum_nil, add_zero, Dbl.val]
      nlinarith
    · simp only [List.length_singleton, pow_one, List.map_cons, List.map_nil, List.sum_cons, List.sum_nil, add_zero, Dbl.val]
      nlinarith
  | @add l l1 l2 a b h1 h2 hp i1 i2 =>
    intro hl hx
    have hlen := hp.length_eq
    rw [List.length_append] at hlen
    obtain ⟨ta, rfl, ba, sa0, sa1, la, ua⟩ := i1 (by omega) (fun x h => hx x (hp.mem_iff.2 (List.mem_append_left _ h)))
    obtain ⟨tb, rfl, bb, sb0, sb1, lb, ub⟩ := i2 (by omega) (fun x h => hx x (hp.mem_iff.2 (List.mem_append_right _ h)))
    have hS : (l.map Dbl.val).sum = (l1.map Dbl.val).sum + (l2.map Dbl.val).sum := by rw [(hp.map Dbl.val).sum_eq, List.map_append, List.sum_append]
    have hlQ : (l.length : ℚ) = l1.length + l2.length := by rw [hlen]; push_cast; ring
    have ha0 : 0 ≤ ta := le_trans (mul_nonneg (pow_nonneg (by norm_num) _) sa0) la
    have hb0 : 0 ≤ tb := le_trans (mul_nonneg (pow_nonneg (by norm_num) _) sb0) lb
    have hsum1 : (l.map Dbl.val).sum ≤ l.length * 1000 := by rw [hS, hlQ]; linarith
    have hfin : add (.fin ta) (.fin tb) = .fin (roundQ (ta + tb)) := by
      refine roundD_small (k := 60) (by norm_num) (by norm_num) ?_
      rw [abs_of_nonneg (by linarith)]
      have p1 := pow_one_add_le_two l1.length (by omega)
      have p2 := pow_one_add_le_two l2.length (by omega)
      have hc : (l.length : ℚ) ≤ 2 ^ 42 := by exact_mod_cast hl
      have q1 : (1 + 1 / 2 ^ 53 : ℚ) ^ l1.length * (l1.map Dbl.val).sum ≤ 2 * (l1.map Dbl.val).sum := mul_le_mul_of_nonneg_right p1 sa0
      have q2 : (1 + 1 / 2 ^ 53 : ℚ) ^ l2.length * (l2.map Dbl.val).sum ≤ 2 * (l2.map Dbl.val).sum := mul_le_mul_of_nonneg_right p2 sb0
      calc ta + tb ≤ 2 * (l.map Dbl.val).sum := by rw [hS]; linarith
        _ ≤ 2 * (l.length * 1000) := by linarith
        _ ≤ 2 * (2 ^ 42 * 1000) := by linarith
        _ ≤ 2 ^ (60 : ℤ) := by norm_num
    have hcomb := combine_bounds (u := 1 / 2 ^ 53) (by norm_num) (by norm_num) (reduceSum_pos h1) (reduceSum_pos h2) sa0 sb0 ⟨la, ua⟩ ⟨lb, ub⟩ (round_add_bounds ba bb ha0 hb0)
    rw [← hlen, ← hS] at hcomb
    exact ⟨roundQ (ta + tb), hfin, roundQ_binary53 _, by rw [hS]; linarith, hsum1, hcomb.1, hcomb.2⟩

/-! ## The log mapping -/

/-- A quotient, computed in one of the two ways. -/
theorem divR_unit (recip : Bool) {a b : ℚ} (a0 : 0 ≤ a) (hb : 2 ^ (-64 : ℤ) ≤ b) (hb2 : b ≤ 2 ^ (64 : ℤ)) (hab : a ≤ 2 * b) :
    ∃ f, divR recip (.fin a) (.fin b) = .fin f ∧ IsBinary53 f ∧ 0 ≤ f ∧ |f - a / b| ≤ 3 * (1 / 2 ^ 53) * (a / b) + 2 ^ (-1075 : ℤ) := by
  have hb0 : 0 < b := lt_of_lt_of_le (two_zpow_pos _) hb
  have hq0 : 0 ≤ a / b := by positivity
  have hq2 : a / b ≤ 2 := by rw [div_le_iff₀ hb0]; exact hab
  have hη0 := two_zpow_pos (-1075)
  unfold divR
  cases recip with
  | false =>
    refine ⟨roundQ (a / b), ?_, roundQ_binary53 _, le_roundQ_of_binary53 hq0 isBinary53_zero, ?_⟩
    · rw [if_neg (by simp)]
      show (if b = 0 then _ else roundD (a / b)) = _
      rw [if_neg hb0.ne', roundD_small (k := 1) (by norm_num) (by norm_num) (by rw [abs_of_nonneg hq0]; simpa using hq2)]
    · have h := (roundQ_err (a / b)).1
      rw [abs_of_nonneg hq0] at h
      refine h.trans (add_le_add ?_ le_rfl)
      have : a / b / 2 ^ 53 = 1 / 2 ^ 53 * (a / b) := by ring
      rw [this]
      gcongr
      norm_num
  | true =>
    have hr1 : (2 : ℚ) ^ (-1002 : ℤ) ≤ 1 / b := by
      rw [le_div_iff₀ hb0]
      calc (2 : ℚ) ^ (-1002 : ℤ) * b ≤ 2 ^ (-1002 : ℤ) * 2 ^ (64 : ℤ) := mul_le_mul_of_nonneg_left hb2 (two_zpow_pos _).le
        _ = 2 ^ (-938 : ℤ) := by rw [← two_zpow_add]; norm_num
        _ ≤ 2 ^ (0 : ℤ) := two_zpow_le (by norm_num)
        _ = 1 := by norm_num
    have hr2 : 1 / b ≤ 2 ^ (64 : ℤ) := by
      rw [div_le_iff₀ hb0]
      calc (1 : ℚ) = 2 ^ (64 : ℤ) * 2 ^ (-64 : ℤ) := by rw [← two_zpow_add]; norm_num
        _ ≤ 2 ^ (64 : ℤ) * b := mul_le_mul_of_nonneg_left hb (two_zpow_pos _).le
    have e1 := roundQ_rel hr1
    have e1' := abs_le.1 e1
    obtain ⟨r, hr⟩ : ∃ r, r = roundQ (1 / b) := ⟨_, rfl⟩
    rw [← hr] at e1 e1'
    have hr0 : 0 ≤ r := by rw [hr]; exact le_roundQ_of_binary53 (by positivity) isBinary53_zero
    have har : |a * r - a / b| ≤ 101 / 100 * (1 / 2 ^ 53) * (a / b) := by
      have : a * r - a / b = a * (r - 1 / b) := by ring
      rw [this, abs_mul, abs_of_nonneg a0]
      calc a * |r - 1 / b| ≤ a * (101 / 100 * (1 / 2 ^ 53) * (1 / b)) := mul_le_mul_of_nonneg_left e1 a0
        _ = _ := by ring
    have har' := abs_le.1 har
    have hup : a * r ≤ 3 / 2 * (a / b) := by nlinarith [har'.2]
    have har0 : 0 ≤ a * r := mul_nonneg a0 hr0
    refine ⟨roundQ (a * r), ?_, roundQ_binary53 _, le_roundQ_of_binary53 har0 isBinary53_zero, ?_⟩
    · rw [if_pos rfl]
      have ed : div (.fin 1) (.fin b) = .fin r := by
        show (if b = 0 then _ else roundD (1 / b)) = _
        rw [if_neg hb0.ne', roundD_small (k := 64) (by norm_num) (by norm_num) (by rw [abs_of_nonneg (by positivity)]; exact hr2), hr]
      rw [ed]
      refine roundD_small (k := 2) (by norm_num) (by norm_num) ?_
      rw [abs_of_nonneg har0]
      norm_num
      linarith
    · have h := (roundQ_err (a * r)).1
      rw [abs_of_nonneg har0] at h
      have h2 := abs_add_le (roundQ (a * r) - a * r) (a * r - a / b)
      rw [sub_add_sub_cancel] at h2
      have h3 : a * r / 2 ^ 53 ≤ 3 / 2 * (1 / 2 ^ 53) * (a / b) := by
        have : a * r / 2 ^ 53 = 1 / 2 ^ 53 * (a * r) := by ring
        rw [this]
        calc 1 / 2 ^ 53 * (a * r) ≤ 1 / 2 ^ 53 * (3 / 2 * (a / b)) := by gcongr
          _ = _ := by ring
      have aux : ∀ x y z w v h : ℚ, x ≤ y + h → y ≤ z → w ≤ v → x + w ≤ z + v + h := by intro x y z w v h _ _ _; linarith
      refine h2.trans ((aux _ _ _ _ _ _ h h3 har).trans (add_le_add ?_ le_rfl))
      rw [← add_mul, ← add_mul]
      gcongr
      norm_num

theorem simplexMappingLogD_spec (recip : Bool) (log : Dbl → Dbl) (hlog : LogBelowOne log) (sum : List Dbl → Dbl) (hsum : ReduceContract sum) (point : List Dbl) (hne : point ≠ []) (hn : point.length ≤ 2 ^ 40)
    (h : ∀ p ∈ point, InUnitInterval p) :
    ∃ r, simplexMappingLogD recip log sum point = some r ∧ OnSimplexUpTo ((point.length + 5) * 2 ^ (-52 : ℤ)) point.length r ∧ (∀ x ∈ r, DblBetween x 0 2) ∧
      ∃ s : ℚ, 0 < s ∧ ∀ (i : Nat) (p : Dbl), point[i]? = some p → ∃ f : ℚ, r[i]? = some (.fin f) ∧ |f - Dbl.val (negLogD log p) / s| ≤ 3 / 2 ^ 53 * (Dbl.val (negLogD log p) / s) + 2 ^ (-1075 : ℤ) := by
  have hcube : inUnitCubeD point := by
    intro p hp
    obtain ⟨q, rfl, -, q0, q1⟩ := h p hp
    exact ⟨decide_eq_true q0, decide_eq_true q1.le⟩
  -- the negative logarithms
  have hx : ∀ p ∈ point, ∃ y, negLogD log p = .fin y ∧ IsDouble y ∧ 2 ^ (-54 : ℤ) ≤ y ∧ y ≤ 1000 := by
    intro p hp
    obtain ⟨q, rfl, hq, q0, q1⟩ := h p hp
    have key : ∃ z, (if Dbl.lt (.fin q) smallD then smallD else .fin q) = .fin z ∧ IsDouble z ∧ 2 ^ (-1022 : ℤ) ≤ z ∧ z < 1 := by
      by_cases hlt : q < 2 ^ (-1022 : ℤ)
      · refine ⟨2 ^ (-1022 : ℤ), ?_, ⟨isBinary53_zpow (by norm_num), lt_two_pow_1024 (k := -1022) (by norm_num) (by rw [abs_of_pos (two_zpow_pos _)])⟩, le_rfl, ?_⟩
        · rw [if_pos]
          · rfl
          · exact decide_eq_true hlt
        · calc (2 : ℚ) ^ (-1022 : ℤ) ≤ 2 ^ (-1 : ℤ) := two_zpow_le (by norm_num)
            _ < 1 := by norm_num
      · refine ⟨q, ?_, hq, not_lt.1 hlt, q1⟩
        rw [if_neg]
        intro hc
        exact hlt (of_decide_eq_true hc)
    obtain ⟨z, ez, hz, z0, z1⟩ := key
    obtain ⟨y, ey, hy, y0, y1⟩ := hlog z hz z0 z1
    refine ⟨-y, ?_, ⟨isBinary53_neg hy.1, by rw [abs_neg]; exact hy.2⟩, by linarith, by linarith⟩
    unfold negLogD
    rw [ez, ey]
    rfl
  set xs := point.map (negLogD log) with hxs
  have hxs1 : ∀ x ∈ xs, ∃ y, x = .fin y ∧ (IsDouble y ∧ 2 ^ (-54 : ℤ) ≤ y ∧ y ≤ 1000) := by
    intro x hm
    obtain ⟨p, hp, rfl⟩ := List.mem_map.1 hm
    exact hx p hp
  obtain ⟨q, eq, hq⟩ := exists_fin_list xs hxs1
  have hql : q.length = point.length := by
    have := congrArg List.length eq
    rw [List.length_map, List.length_map] at this
    exact this.symm
  -- their sum
  obtain ⟨t, et, ht, S0, S1, tl, tu⟩ := reduceSum_err (hsum xs) (by rw [List.length_cons, eq, List.length_map, hql]; omega) (by
    intro x hm
    rcases List.mem_cons.1 hm with rfl | hm
    · exact ⟨0, rfl, ⟨isBinary53_zero, by norm_num⟩, le_rfl, by norm_num⟩
    · obtain ⟨y, e, hy, y0, y1⟩ := hxs1 x hm
      exact ⟨y, e, hy, (two_zpow_pos _).le.trans y0, y1⟩)
  have hSum : ((Dbl.fin 0 :: xs).map Dbl.val).sum = q.sum := by rw [eq, List.map_cons, List.sum_cons, fin_map_val]; simp [Dbl.val]
  have hL : (Dbl.fin 0 :: xs).length = point.length + 1 := by rw [List.length_cons, eq, List.length_map, hql]
  rw [hSum, hL] at tl tu S1
  rw [hSum] at S0
  obtain ⟨m, hm⟩ : ∃ m, m = point.length := ⟨_, rfl⟩
  rw [← hm] at tl tu S1 hn hql ⊢
  have hm1 : 1 ≤ m := by rw [hm]; exact List.length_pos_iff.2 hne
  have hmQ : (m : ℚ) ≤ 2 ^ 40 := by exact_mod_cast hn
  have hm1Q : (1 : ℚ) ≤ m := by exact_mod_cast hm1
  obtain ⟨S, hS⟩ : ∃ S, S = q.sum := ⟨_, rfl⟩
  rw [← hS] at tl tu S1 S0
  have hε : ((m : ℚ) + 1) * (1 / 2 ^ 53) ≤ 1 / 1000 := by
    calc ((m : ℚ) + 1) * (1 / 2 ^ 53) ≤ (2 ^ 40 + 1) * (1 / 2 ^ 53) := by gcongr
      _ ≤ 1 / 1000 := by norm_num
  have hε0 : 0 ≤ ((m : ℚ) + 1) * (1 / 2 ^ 53) := mul_nonneg (by linarith) (by norm_num)
  obtain ⟨ε, hεd⟩ : ∃ ε, ε = ((m : ℚ) + 1) * (1 / 2 ^ 53) := ⟨_, rfl⟩
  rw [← hεd] at hε hε0
  have htl : (1 - ε) * S ≤ t := by
    refine le_trans (mul_le_mul_of_nonneg_right ?_ S0) tl
    have := le_one_sub_pow (u := 1 / 2 ^ 53) (by norm_num) (m + 1)
    rw [hεd]
    push_cast at this
    exact this
  have htu : t ≤ (1 + 2 * ε) * S := by
    refine tu.trans (mul_le_mul_of_nonneg_right ?_ S0)
    have := one_add_pow_le (u := 1 / 2 ^ 53) (by norm_num) (m + 1) (by push_cast; rw [hεd] at hε; linarith)
    rw [hεd]
    push_cast at this
    linarith
  have hle : ∀ y ∈ q, y ≤ S := by
    intro y hy
    rw [hS]
    exact le_sum_of_mem (fun z hz => (two_zpow_pos _).le.trans (hq z hz).2.1) hy
  have hS54 : (2 : ℚ) ^ (-54 : ℤ) ≤ S := by
    obtain ⟨y, hy⟩ : ∃ y, y ∈ q := List.exists_mem_of_ne_nil q (by intro h0; rw [h0] at hql; simp at hql; omega)
    exact (hq y hy).2.1.trans (hle y hy)
  have hSpos : 0 < S := lt_of_lt_of_le (two_zpow_pos _) hS54
  have ht2 : 999 / 1000 * S ≤ t := by nlinarith
  have ht3 : t ≤ 1002 / 1000 * S := by nlinarith
  have htpos : 0 < t := by linarith
  have ht64 : (2 : ℚ) ^ (-64 : ℤ) ≤ t := by
    refine le_trans ?_ ht2
    calc (2 : ℚ) ^ (-64 : ℤ) ≤ 999 / 1000 * 2 ^ (-54 : ℤ) := by norm_num
      _ ≤ _ := by gcongr
  have ht64' : t ≤ 2 ^ (64 : ℤ) := by
    refine ht3.trans ?_
    push_cast at S1
    calc 1002 / 1000 * S ≤ 1002 / 1000 * ((m + 1) * 1000) := by linarith
      _ ≤ 1002 / 1000 * ((2 ^ 40 + 1) * 1000) := by gcongr
      _ ≤ 2 ^ (64 : ℤ) := by norm_num
  -- the quotients
  have hdiv : ∀ y ∈ q, ∃ f, divR recip (.fin y) (.fin t) = .fin f ∧ IsBinary53 f ∧ 0 ≤ f ∧ |f - y / t| ≤ 3 * (1 / 2 ^ 53) * (y / t) + 2 ^ (-1075 : ℤ) := by
    intro y hy
    exact divR_unit recip ((two_zpow_pos _).le.trans (hq y hy).2.1) ht64 ht64' (by linarith [hle y hy])
  have hη : (2 : ℚ) ^ (-1075 : ℤ) ≤ 2 ^ (-200 : ℤ) := two_zpow_le (by norm_num)
  have hSt : S / t ≤ 1002 / 1000 := by rw [div_le_iff₀ htpos]; linarith
  set f : ℚ → ℚ := fun y => Dbl.val (divR recip (.fin y) (.fin t)) with hf
  have hf' : ∀ y ∈ q, divR recip (.fin y) (.fin t) = .fin (f y) ∧ IsBinary53 (f y) ∧ 0 ≤ f y ∧ |f y - y / t| ≤ 3 * (1 / 2 ^ 53) * (y / t) + 2 ^ (-1075 : ℤ) := by
    intro y hy
    obtain ⟨v, e, hv⟩ := hdiv y hy
    have ev : f y = v := by rw [hf]; simp only [e, Dbl.val]
    rw [ev]
    exact ⟨e, hv⟩
  have hres : xs.map (fun x => divR recip x (sum xs)) = (q.map f).map .fin := by
    rw [et, eq, List.map_map, List.map_map]
    exact List.map_congr_left (fun y hy => (hf' y hy).1)
  have hcoord : ∀ y ∈ q, f y ≤ 2 := by
    intro y hy
    have h1 := (abs_le.1 (hf' y hy).2.2.2).2
    have h2 : y / t ≤ 1002 / 1000 := le_trans (by gcongr; exact hle y hy) hSt
    have h3 : 3 * (1 / 2 ^ 53) * (y / t) ≤ 3 * (1 / 2 ^ 53) * (1002 / 1000) := mul_le_mul_of_nonneg_left h2 (by norm_num)
    have h4 : (2 : ℚ) ^ (-200 : ℤ) ≤ 1 / 1000 := by norm_num
    have h5 : 3 * (1 / 2 ^ 53) * (1002 / 1000 : ℚ) ≤ 1 / 1000 := by norm_num
    have := hη.trans h4
    linarith
  refine ⟨(q.map f).map .fin, ?_, ⟨by simp [hql], ?_, ?_⟩, ?_, t, htpos, ?_⟩
  · unfold simplexMappingLogD
    rw [if_pos hcube, ← hxs, hres]
  · intro x hm
    rw [List.map_map] at hm
    obtain ⟨y, hy, rfl⟩ := List.mem_map.1 hm
    refine ⟨f y, rfl, ⟨(hf' y hy).2.1, lt_two_pow_1024 (k := 1) (by norm_num) ?_⟩, le_trans (by simp) (hf' y hy).2.2.1, hcoord y hy⟩
    rw [abs_of_nonneg (hf' y hy).2.2.1]
    simpa using hcoord y hy
  · rw [fin_map_val]
    have h1 : |(q.map f).sum - S / t| ≤ 3 * (1 / 2 ^ 53) * (S / t) + m * 2 ^ (-1075 : ℤ) := by
      have e1 : (q.map (fun y => y / t)).sum = S / t := by rw [hS, sum_map_div (fun x => x) q t, List.map_id']
      rw [← e1, ← list_sum_map_sub]
      refine (list_abs_sum_le _ _).trans ?_
      have := list_sum_map_le q (fun y => |f y - y / t|) (fun y => 3 * (1 / 2 ^ 53) * (y / t) + 2 ^ (-1075 : ℤ)) (fun y hy => (hf' y hy).2.2.2)
      rw [list_sum_map_affine q (fun y => y / t), hql] at this
      exact this
    have h2 : |S / t - 1| ≤ 2 * ε := by
      rw [abs_le]
      constructor
      · have : 1 - 2 * ε ≤ S / t := by
          rw [le_div_iff₀ htpos]
          nlinarith [mul_le_mul_of_nonneg_left htu (show 0 ≤ 1 - 2 * ε by linarith)]
        linarith
      · have : S / t ≤ 1 + 2 * ε := by
          rw [div_le_iff₀ htpos]
          nlinarith [mul_le_mul_of_nonneg_left htl (show 0 ≤ 1 + 2 * ε by linarith)]
        linarith
    have h3 := abs_add_le ((q.map f).sum - S / t) (S / t - 1)
    rw [sub_add_sub_cancel] at h3
    have h4 : 3 * (1 / 2 ^ 53) * (S / t) ≤ 3 * (1 / 2 ^ 53) * (1002 / 1000) := mul_le_mul_of_nonneg_left hSt (by norm_num)
    have h5 : (m : ℚ) * 2 ^ (-1075 : ℤ) ≤ 1 / 2 ^ 53 := by
      calc (m : ℚ) * 2 ^ (-1075 : ℤ) ≤ 2 ^ 40 * 2 ^ (-200 : ℤ) := by gcongr
        _ ≤ 1 / 2 ^ 53 := by norm_num
    have h6 : ((m : ℚ) + 5) * 2 ^ (-52 : ℤ) = 2 * ε + 8 * (1 / 2 ^ 53) := by rw [hεd]; norm_num; ring
    rw [h6]
    have h7 : 3 * (1 / 2 ^ 53) * (1002 / 1000 : ℚ) + 1 / 2 ^ 53 ≤ 8 * (1 / 2 ^ 53) := by norm_num
    linarith
  · intro x hm
    rw [List.map_map] at hm
    obtain ⟨y, hy, rfl⟩ := List.mem_map.1 hm
    refine ⟨f y, rfl, ⟨(hf' y hy).2.1, lt_two_pow_1024 (k := 1) (by norm_num) ?_⟩, (hf' y hy).2.2.1, hcoord y hy⟩
    rw [abs_of_nonneg (hf' y hy).2.2.1]
    simpa using hcoord y hy
  · intro i p hi
    have h1 : xs[i]? = some (negLogD log p) := by rw [hxs, List.getElem?_map, hi, Option.map_some]
    rw [eq, List.getElem?_map] at h1
    obtain ⟨y, hy, ey⟩ := Option.map_eq_some_iff.1 h1
    refine ⟨f y, by rw [List.map_map, List.getElem?_map, hy]; rfl, ?_⟩
    rw [← ey]
    have := (hf' y (List.mem_of_getElem? hy)).2.2.2
    rw [show (3 : ℚ) / 2 ^ 53 = 3 * (1 / 2 ^ 53) by norm_num]
    exact this

/-! ## The sparse subset -/

theorem squareSum_pos {l : List Dbl} {s : Dbl} (h : SquareSum l s) : 0 < l.length := by
  induction h with
  | single x => simp
  | add h1 h2 hp i1 i2 => rw [hp.length_eq, List.length_append]; omega
  | fused h1 hp i1 => rw [hp.length_eq, List.length_cons]; omega

/-- The rounding error of a number that is not negative. -/
theorem round_bounds {x : ℚ} (h0 : 0 ≤ x) : (1 - 1 / 2 ^ 53) * x - 2 ^ (-1075 : ℤ) ≤ roundQ x ∧ roundQ x ≤ (1 + 1 / 2 ^ 53) * x + 2 ^ (-1075 : ℤ) := by
  have h := (roundQ_err x).1
  rw [abs_of_nonneg h0] at h
  have h' := abs_le.1 h
  have aux : ∀ r η : ℚ, -(x / 2 ^ 53 + η) ≤ r - x → r - x ≤ x / 2 ^ 53 + η → (1 - 1 / 2 ^ 53) * x - η ≤ r ∧ r ≤ (1 + 1 / 2 ^ 53) * x + η := by
    intro r η h1 h2
    constructor <;> linarith
  exact aux _ _ h'.1 h'.2

/-- The sum of the squares of numbers between -8 and 8. -/
theorem squareSum_err {l : List Dbl} {s : Dbl} (h : SquareSum l s) : l.length ≤ 2 ^ 42 → (∀ x ∈ l, DblBetween x (-8) 8) →
    ∃ t : ℚ, s = .fin t ∧ IsBinary53 t ∧ 0 ≤ t ∧ 0 ≤ (l.map (fun x => Dbl.val x ^ 2)).sum ∧ (l.map (fun x => Dbl.val x ^ 2)).sum ≤ l.length * 64 ∧
      (1 - 1 / 2 ^ 53) ^ l.length * (l.map (fun x => Dbl.val x ^ 2)).sum - l.length * 2 ^ (-1075 : ℤ) ≤ t ∧
      t ≤ (1 + 1 / 2 ^ 53) ^ l.length * ((l.map (fun x => Dbl.val x ^ 2)).sum + l.length * 2 ^ (-1075 : ℤ)) := by
  have hη0 := two_zpow_pos (-1075)
  have hη1 : (2 : ℚ) ^ (-1075 : ℤ) ≤ 1 := by
    calc (2 : ℚ) ^ (-1075 : ℤ) ≤ 2 ^ (0 : ℤ) := two_zpow_le (by norm_num)
      _ = 1 := by norm_num
  generalize hη : (2 : ℚ) ^ (-1075 : ℤ) = η at hη0 hη1
  have hrb : ∀ x : ℚ, 0 ≤ x → (1 - 1 / 2 ^ 53) * x - η ≤ roundQ x ∧ roundQ x ≤ (1 + 1 / 2 ^ 53) * x + η := by
    intro x h0
    rw [← hη]
    exact round_bounds h0
  have hbig : ∀ (n : Nat) (S t : ℚ), n ≤ 2 ^ 42 → S ≤ n * 64 → 0 ≤ S → t ≤ (1 + 1 / 2 ^ 53) ^ n * (S + n * η) → t ≤ 2 ^ 50 := by
    intro n S t hn hS hS0 ht
    have hnQ : (n : ℚ) ≤ 2 ^ 42 := by exact_mod_cast hn
    have hn0 : (0 : ℚ) ≤ n := Nat.cast_nonneg _
    have h1 : S + n * η ≤ n * 65 := by nlinarith
    have h2 : 0 ≤ S + n * η := by positivity
    calc t ≤ 2 * (S + n * η) := ht.trans (mul_le_mul_of_nonneg_right (pow_one_add_le_two n hn) h2)
      _ ≤ 2 * (2 ^ 42 * 65) := by linarith
      _ ≤ 2 ^ 50 := by norm_num
  induction h with
  | single x =>
    intro _ hx
    obtain ⟨q, rfl, hq, q0, q1⟩ := hx x (by simp)
    have hsq : q * q ≤ 64 := by nlinarith
    have hsq0 : 0 ≤ q * q := mul_self_nonneg q
    have hb := hrb (q * q) hsq0
    refine ⟨roundQ (q * q), roundD_small (k := 6) (by norm_num) (by norm_num) (by rw [abs_of_nonneg hsq0]; simpa using hsq.trans (by norm_num)), roundQ_binary53 _,
      le_roundQ_of_binary53 hsq0 isBinary53_zero, ?_, ?_, ?_, ?_⟩ <;> simp only [List.length_singleton, pow_one, List.map_cons, List.map_nil, List.sum_cons, List.sum_nil, add_zero, Dbl.val, Nat.cast_one, one_mul]
    · positivity
    · nlinarith
    · rw [sq]; exact hb.1
    · rw [sq]
      refine hb.2.trans ?_
      rw [mul_add]
      nlinarith
  | @add l l1 l2 a b h1 h2 hp i1 i2 =>
    intro hl hx
    have hlen := hp.length_eq
    rw [List.length_append] at hlen
    obtain ⟨ta, rfl, ba, a0, sa0, sa1, la, ua⟩ := i1 (by omega) (fun x h => hx x (hp.mem_iff.2 (List.mem_append_left _ h)))
    obtain ⟨tb, rfl, bb, b0, sb0, sb1, lb, ub⟩ := i2 (by omega) (fun x h => hx x (hp.mem_iff.2 (List.mem_append_right _ h)))
    have hS : (l.map (fun x => Dbl.val x ^ 2)).sum = (l1.map (fun x => Dbl.val x ^ 2)).sum + (l2.map (fun x => Dbl.val x ^ 2)).sum := by
      rw [(hp.map (fun x => Dbl.val x ^ 2)).sum_eq, List.map_append, List.sum_append]
    have hlQ : (l.length : ℚ) = l1.length + l2.length := by rw [hlen]; push_cast; ring
    have ha := hbig l1.length _ ta (by omega) sa1 sa0 ua
    have hb := hbig l2.length _ tb (by omega) sb1 sb0 ub
    have hfin : add (.fin ta) (.fin tb) = .fin (roundQ (ta + tb)) := by
      refine roundD_small (k := 60) (by norm_num) (by norm_num) ?_
      rw [abs_of_nonneg (by linarith)]
      norm_num at ha hb ⊢
      linarith
    have hround := round_add_bounds ba bb a0 b0
    have hl1 := squareSum_pos h1
    have hl2 := squareSum_pos h2
    rw [hS, hlen]
    refine ⟨roundQ (ta + tb), hfin, roundQ_binary53 _, le_roundQ_of_binary53 (by linarith) isBinary53_zero, by linarith, by push_cast; linarith, ?_, ?_⟩
    · generalize (l1.map (fun x => Dbl.val x ^ 2)).sum = S1 at *
      generalize (l2.map (fun x => Dbl.val x ^ 2)).sum = S2 at *
      have hlo : ∀ n k : Nat, n + 1 ≤ k → ∀ S : ℚ, 0 ≤ S → (1 - 1 / 2 ^ 53) ^ k * S ≤ (1 - 1 / 2 ^ 53 : ℚ) * ((1 - 1 / 2 ^ 53) ^ n * S) := by
        intro n k hk S hS
        rw [← mul_assoc, ← pow_succ']
        exact mul_le_mul_of_nonneg_right (pow_le_pow_of_le_one (by norm_num) (by norm_num) hk) hS
      have e1 := hlo l1.length (l1.length + l2.length) (by omega) S1 sa0
      have e2 := hlo l2.length (l1.length + l2.length) (by omega) S2 sb0
      have n1 : (0 : ℚ) ≤ l1.length * η := by positivity
      have n2 : (0 : ℚ) ≤ l2.length * η := by positivity
      have e3 : (1 - 1 / 2 ^ 53 : ℚ) * ((1 - 1 / 2 ^ 53) ^ l1.length * S1 - l1.length * η + ((1 - 1 / 2 ^ 53) ^ l2.length * S2 - l2.length * η)) ≤ (1 - 1 / 2 ^ 53) * (ta + tb) :=
        mul_le_mul_of_nonneg_left (add_le_add la lb) (by norm_num)
      refine le_trans ?_ (e3.trans hround.1)
      push_cast
      rw [mul_add]
      nlinarith
    · generalize (l1.map (fun x => Dbl.val x ^ 2)).sum = S1 at *
      generalize (l2.map (fun x => Dbl.val x ^ 2)).sum = S2 at *
      have n1 : (0 : ℚ) ≤ l1.length * η := by positivity
      have n2 : (0 : ℚ) ≤ l2.length * η := by positivity
      have hup : ∀ n k : Nat, n + 1 ≤ k → ∀ S : ℚ, 0 ≤ S → (1 + 1 / 2 ^ 53 : ℚ) * ((1 + 1 / 2 ^ 53) ^ n * S) ≤ (1 + 1 / 2 ^ 53) ^ k * S := by
        intro n k hk S hS
        rw [← mul_assoc, ← pow_succ']
        exact mul_le_mul_of_nonneg_right (pow_le_pow_right₀ (by norm_num) hk) hS
      have e1 := hup l1.length (l1.length + l2.length) (by omega) (S1 + l1.length * η) (by linarith)
      have e2 := hup l2.length (l1.length + l2.length) (by omega) (S2 + l2.length * η) (by linarith)
      have e3 : (1 + 1 / 2 ^ 53 : ℚ) * (ta + tb) ≤ (1 + 1 / 2 ^ 53) * ((1 + 1 / 2 ^ 53) ^ l1.length * (S1 + l1.length * η) + (1 + 1 / 2 ^ 53) ^ l2.length * (S2 + l2.length * η)) :=
        mul_le_mul_of_nonneg_left (add_le_add ua ub) (by norm_num)
      refine hround.2.trans (e3.trans ?_)
      rw [mul_add]
      refine (add_le_add e1 e2).trans (le_of_eq ?_)
      push_cast
      ring
  | @fused l l1 x a h1 hp i1 =>
    intro hl hx
    have hlen := hp.length_eq
    rw [List.length_cons] at hlen
    obtain ⟨ta, rfl, ba, a0, sa0, sa1, la, ua⟩ := i1 (by omega) (fun y h => hx y (hp.mem_iff.2 (List.mem_cons_of_mem _ h)))
    obtain ⟨q, rfl, hq, q0, q1⟩ := hx x (hp.mem_iff.2 List.mem_cons_self)
    have hS : (l.map (fun x => Dbl.val x ^ 2)).sum = q ^ 2 + (l1.map (fun x => Dbl.val x ^ 2)).sum := by
      rw [(hp.map (fun x => Dbl.val x ^ 2)).sum_eq, List.map_cons, List.sum_cons]
      rfl
    have hsq : q * q ≤ 64 := by nlinarith
    have hsq0 : 0 ≤ q * q := mul_self_nonneg q
    have ha := hbig l1.length _ ta (by omega) sa1 sa0 ua
    have hx0 : 0 ≤ ta + q * q := by linarith
    have hfin : mulAdd true (.fin q) (.fin q) (.fin ta) = .fin (roundQ (ta + q * q)) := by
      refine roundD_small (k := 60) (by norm_num) (by norm_num) ?_
      rw [abs_of_nonneg hx0]
      norm_num at ha ⊢
      linarith
    have hround := hrb (ta + q * q) hx0
    rw [hS, hlen]
    refine ⟨roundQ (ta + q * q), hfin, roundQ_binary53 _, le_roundQ_of_binary53 hx0 isBinary53_zero, by nlinarith, by push_cast; nlinarith, ?_, ?_⟩
    · generalize (l1.map (fun x => Dbl.val x ^ 2)).sum = S1 at *
      have n1 : (0 : ℚ) ≤ l1.length * η := by positivity
      have p1 : (1 - 1 / 2 ^ 53 : ℚ) ^ l1.length ≤ 1 := pow_le_one₀ (by norm_num) (by norm_num)
      have e1 : (1 - 1 / 2 ^ 53 : ℚ) * ((1 - 1 / 2 ^ 53) ^ l1.length * S1 - l1.length * η + q * q) - η ≤ (1 - 1 / 2 ^ 53) * (ta + q * q) - η :=
        sub_le_sub_right (mul_le_mul_of_nonneg_left (by linarith) (by norm_num)) _
      refine le_trans ?_ (e1.trans hround.1)
      rw [pow_succ', sq]
      have e2 : (1 - 1 / 2 ^ 53 : ℚ) * ((1 - 1 / 2 ^ 53) ^ l1.length * (q * q)) ≤ (1 - 1 / 2 ^ 53) * (1 * (q * q)) :=
        mul_le_mul_of_nonneg_left (mul_le_mul_of_nonneg_right p1 hsq0) (by norm_num)
      push_cast
      have e3 : (1 - 1 / 2 ^ 53 : ℚ) * (1 - 1 / 2 ^ 53) ^ l1.length * (q * q + S1) = (1 - 1 / 2 ^ 53) * ((1 - 1 / 2 ^ 53) ^ l1.length * (q * q)) + (1 - 1 / 2 ^ 53) * ((1 - 1 / 2 ^ 53) ^ l1.length * S1) := by ring
      rw [e3]
      generalize (1 - 1 / 2 ^ 53 : ℚ) ^ l1.length = P at *
      nlinarith
    · generalize (l1.map (fun x => Dbl.val x ^ 2)).sum = S1 at *
      have n1 : (0 : ℚ) ≤ l1.length * η := by positivity
      have p1 : (1 : ℚ) ≤ (1 + 1 / 2 ^ 53) ^ l1.length := one_le_pow₀ (by norm_num)
      have p2 : (1 : ℚ) ≤ (1 + 1 / 2 ^ 53) ^ (l1.length + 1) := one_le_pow₀ (by norm_num)
      have e1 : (1 + 1 / 2 ^ 53 : ℚ) * (ta + q * q) ≤ (1 + 1 / 2 ^ 53) * ((1 + 1 / 2 ^ 53) ^ l1.length * (S1 + l1.length * η) + (1 + 1 / 2 ^ 53) ^ l1.length * (q * q)) := by
        refine mul_le_mul_of_nonneg_left (add_le_add ua ?_) (by norm_num)
        exact le_mul_of_one_le_left hsq0 p1
      have e2 : η ≤ (1 + 1 / 2 ^ 53 : ℚ) ^ (l1.length + 1) * η := le_mul_of_one_le_left hη0.le p2
      refine hround.2.trans ((add_le_add e1 e2).trans (le_of_eq ?_))
      push_cast
      ring

/-- The entries of the points. -/
def SmallRow (m : Nat) (p : List Dbl) : Prop := p.length = m ∧ ∀ x ∈ p, DblBetween x (-2) 2

/-- The squares of the rounded differences. -/
theorem diffs_sq (a b : List ℚ) (hl : a.length = b.length) (ha : ∀ x ∈ a, IsBinary53 x ∧ -2 ≤ x ∧ x ≤ 2) (hb : ∀ x ∈ b, IsBinary53 x ∧ -2 ≤ x ∧ x ≤ 2) :
    (∀ x ∈ List.zipWith sub (a.map .fin) (b.map .fin), DblBetween x (-8) 8) ∧ 0 ≤ sqDist a b ∧
      (1 - 1 / 2 ^ 53) ^ 2 * sqDist a b ≤ ((List.zipWith sub (a.map .fin) (b.map .fin)).map (fun x => Dbl.val x ^ 2)).sum ∧
      ((List.zipWith sub (a.map .fin) (b.map .fin)).map (fun x => Dbl.val x ^ 2)).sum ≤ (1 + 1 / 2 ^ 53) ^ 2 * sqDist a b := by
  induction a generalizing b with
  | nil => cases b <;> simp [sqDist]
  | cons x a ih =>
    cases b with
    | nil => simp at hl
    | cons y b =>
      obtain ⟨h1, h2, h3, h4⟩ := ih b (by simpa using hl) (fun z hz => ha z (List.mem_cons_of_mem _ hz)) (fun z hz => hb z (List.mem_cons_of_mem _ hz))
      obtain ⟨xb, x0, x1⟩ := ha x List.mem_cons_self
      obtain ⟨yb, y0, y1⟩ := hb y List.mem_cons_self
      have habs : |x - y| ≤ 4 := abs_le.2 ⟨by linarith, by linarith⟩
      have he := roundQ_err_sum xb yb
      have esub : sub (.fin x) (.fin y) = .fin (roundQ (x - y)) := by
        show roundD (x + -y) = _
        rw [← sub_eq_add_neg]
        exact roundD_small (k := 2) (by norm_num) (by norm_num) (by norm_num; exact habs)
      have hr4 := abs_roundQ_le (k := 2) (x := x - y) (by norm_num) (by norm_num; exact habs)
      have hd : DblBetween (sub (.fin x) (.fin y)) (-8) 8 := by
        have hr := abs_le.1 hr4
        norm_num at hr
        exact ⟨_, esub, ⟨roundQ_binary53 _, lt_two_pow_1024 (k := 2) (by norm_num) hr4⟩, by linarith, by linarith⟩
      have hsq : (1 - 1 / 2 ^ 53) ^ 2 * (x - y) ^ 2 ≤ roundQ (x - y) ^ 2 ∧ roundQ (x - y) ^ 2 ≤ (1 + 1 / 2 ^ 53) ^ 2 * (x - y) ^ 2 := by
        rw [← mul_pow, ← mul_pow, sq_le_sq, sq_le_sq, abs_mul, abs_mul, abs_of_pos (show (0 : ℚ) < 1 - 1 / 2 ^ 53 by norm_num), abs_of_pos (show (0 : ℚ) < 1 + 1 / 2 ^ 53 by norm_num)]
        have g1 := abs_sub_abs_le_abs_sub (roundQ (x - y)) (x - y)
        have g2 := abs_sub_abs_le_abs_sub (x - y) (roundQ (x - y))
        rw [abs_sub_comm (x - y) (roundQ (x - y))] at g2
        constructor <;> linarith
      have ed : sqDist (x :: a) (y :: b) = (x - y) ^ 2 + sqDist a b := by simp [sqDist]
      rw [ed]
      simp only [List.map_cons, List.zipWith_cons_cons, List.sum_cons, esub]
      rw [esub] at hd
      rw [show Dbl.val (.fin (roundQ (x - y))) = roundQ (x - y) from rfl]
      refine ⟨?_, by positivity, by linarith [hsq.1, mul_add ((1 - 1 / 2 ^ 53 : ℚ) ^ 2) ((x - y) ^ 2) (sqDist a b)], by linarith [hsq.2, mul_add ((1 + 1 / 2 ^ 53 : ℚ) ^ 2) ((x - y) ^ 2) (sqDist a b)]⟩
      intro z hz
      rcases List.mem_cons.1 hz with rfl | hz
      · exact hd
      · exact h1 z hz

/-- The computed distance is accurate. -/
theorem euclideanDistanceSqD_err (sumSq : List Dbl → Dbl) (hsum : SquareContract sumSq) (m : Nat) (hm : m ≤ 2 ^ 40) (a b : List Dbl) (ha : SmallRow m a) (hb : SmallRow m b) :
    ∃ t : ℚ, euclideanDistanceSqD sumSq a b = some (.fin t) ∧ (1 - (m + 3) / 2 ^ 52) * sqDistQ a b - (m + 1) * 2 ^ (-1074 : ℤ) ≤ t ∧ t ≤ (1 + (m + 3) / 2 ^ 52) * sqDistQ a b + (m + 1) * 2 ^ (-1074 : ℤ) := by
  obtain ⟨qa, rfl, hqa⟩ := exists_fin_list a ha.2
  obtain ⟨qb, rfl, hqb⟩ := exists_fin_list b hb.2
  have hla : qa.length = m := by have := ha.1; simpa using this
  have hlb : qb.length = m := by have := hb.1; simpa using this
  obtain ⟨h1, h2, h3, h4⟩ := diffs_sq qa qb (by omega) (fun x hx => ⟨(hqa x hx).1.1, (hqa x hx).2⟩) (fun x hx => ⟨(hqb x hx).1.1, (hqb x hx).2⟩)
  obtain ⟨t, et, -, -, S0, -, tl, tu⟩ := squareSum_err (hsum (List.zipWith sub (qa.map .fin) (qb.map .fin))) (by simp [hla, hlb]; omega) (by
    intro x hx
    rcases List.mem_cons.1 hx with rfl | hx
    · exact ⟨0, rfl, ⟨isBinary53_zero, by norm_num⟩, by norm_num, by norm_num⟩
    · exact h1 x hx)
  have hS : ((Dbl.fin 0 :: List.zipWith sub (qa.map .fin) (qb.map .fin)).map (fun x => Dbl.val x ^ 2)).sum = ((List.zipWith sub (qa.map .fin) (qb.map .fin)).map (fun x => Dbl.val x ^ 2)).sum := by
    simp [Dbl.val]
  have hL : (Dbl.fin 0 :: List.zipWith sub (qa.map .fin) (qb.map .fin)).length = m + 1 := by simp [hla, hlb]
  rw [hS, hL] at tl tu
  rw [hS] at S0
  have eD : sqDistQ (qa.map .fin) (qb.map .fin) = sqDist qa qb := by unfold sqDistQ; rw [fin_map_val, fin_map_val]
  rw [eD]
  refine ⟨t, by unfold euclideanDistanceSqD; rw [if_pos (by simp [hla, hlb]), et], ?_, ?_⟩
  · generalize ((List.zipWith sub (qa.map .fin) (qb.map .fin)).map (fun x => Dbl.val x ^ 2)).sum = S at *
    generalize sqDist qa qb = D at *
    refine le_trans ?_ tl
    have e1 : (1 - 1 / 2 ^ 53 : ℚ) ^ (m + 1) * ((1 - 1 / 2 ^ 53) ^ 2 * D) ≤ (1 - 1 / 2 ^ 53) ^ (m + 1) * S := mul_le_mul_of_nonneg_left h3 (pow_nonneg (by norm_num) _)
    rw [← mul_assoc, ← pow_add] at e1
    have e2 : (1 - (m + 3) / 2 ^ 52 : ℚ) * D ≤ (1 - 1 / 2 ^ 53) ^ (m + 1 + 2) * D := by
      refine mul_le_mul_of_nonneg_right ?_ h2
      refine le_trans ?_ (le_one_sub_pow (u := 1 / 2 ^ 53) (by norm_num) (m + 1 + 2))
      push_cast
      have : (0 : ℚ) ≤ m := Nat.cast_nonneg _
      linarith
    have e3 : (2 : ℚ) ^ (-1075 : ℤ) ≤ 2 ^ (-1074 : ℤ) := two_zpow_le (by norm_num)
    have e4 : ((m + 1 : ℕ) : ℚ) * 2 ^ (-1075 : ℤ) ≤ (m + 1) * 2 ^ (-1074 : ℤ) := by
      push_cast
      exact mul_le_mul_of_nonneg_left e3 (by positivity)
    exact sub_le_sub (e2.trans e1) e4
  · generalize ((List.zipWith sub (qa.map .fin) (qb.map .fin)).map (fun x => Dbl.val x ^ 2)).sum = S at *
    generalize sqDist qa qb = D at *
    refine tu.trans ?_
    rw [mul_add]
    refine add_le_add ?_ ?_
    · have e1 : (1 + 1 / 2 ^ 53 : ℚ) ^ (m + 1) * S ≤ (1 + 1 / 2 ^ 53) ^ (m + 1) * ((1 + 1 / 2 ^ 53) ^ 2 * D) := mul_le_mul_of_nonneg_left h4 (pow_nonneg (by norm_num) _)
      rw [← mul_assoc, ← pow_add] at e1
      refine e1.trans (mul_le_mul_of_nonneg_right ?_ h2)
      have hmQ : (m : ℚ) ≤ 2 ^ 40 := by exact_mod_cast hm
      refine (one_add_pow_le (u := 1 / 2 ^ 53) (by norm_num) (m + 1 + 2) ?_).trans (le_of_eq ?_)
      · push_cast
        calc 2 * ((m : ℚ) + 1 + 2) * (1 / 2 ^ 53) ≤ 2 * (2 ^ 40 + 1 + 2) * (1 / 2 ^ 53) := by gcongr
          _ ≤ 1 := by norm_num
      · push_cast
        ring
    · have e1 : (1 + 1 / 2 ^ 53 : ℚ) ^ (m + 1) * (((m + 1 : ℕ) : ℚ) * 2 ^ (-1075 : ℤ)) ≤ 2 * (((m + 1 : ℕ) : ℚ) * 2 ^ (-1075 : ℤ)) :=
        mul_le_mul_of_nonneg_right (pow_one_add_le_two _ (by omega)) (mul_nonneg (by positivity) (two_zpow_pos _).le)
      refine e1.trans (le_of_eq ?_)
      have e2 : (2 : ℚ) ^ (-1074 : ℤ) = 2 * 2 ^ (-1075 : ℤ) := by
        have := two_zpow_add 1 (-1075)
        norm_num at this
        simpa using this
      rw [e2]
      push_cast
      ring

theorem sqDistQ_comm (a b : List Dbl) : sqDistQ a b = sqDistQ b a := sqDist_comm _ _

/-- What holds in the loop of the sparse subset. -/
structure SparseInvD (m : Nat) (cands : List (List Dbl)) (s : SparseState Dbl) : Prop where
  perm : (s.points ++ s.candidates).Perm cands
  len : s.minDistances.length = s.candidates.length
  fin : ∀ x ∈ s.minDistances, ∃ d : ℚ, x = .fin d ∧ True
  dist : ∀ (k : Nat) (c : List Dbl) (d : ℚ), s.candidates[k]? = some c → s.minDistances[k]? = some (.fin d) →
    (∃ a ∈ s.points, (1 - (m + 3) / 2 ^ 52) * sqDistQ a c - (m + 1) * 2 ^ (-1074 : ℤ) ≤ d) ∧ ∀ a ∈ s.points, d ≤ (1 + (m + 3) / 2 ^ 52) * sqDistQ a c + (m + 1) * 2 ^ (-1074 : ℤ)
  greedy : ∀ (i : Nat) (p : List Dbl), 0 < i → s.points[i]? = some p → ∀ q ∈ s.points.drop i ++ s.candidates, NearlyAsFar m (s.points.take i) q p

theorem updateMinDistancesD_spec (sumSq : List Dbl → Dbl) (p : List Dbl) (P : List Dbl → Dbl → Prop) : ∀ (cs : List (List Dbl)) (ds : List Dbl), cs.length = ds.length →
    (∀ c ∈ cs, ∃ t, euclideanDistanceSqD sumSq c p = some t ∧ P c t) →
    ∃ r, updateMinDistancesD sumSq p cs ds = some r ∧ r.length = cs.length ∧ ∀ (k : Nat) (c : List Dbl) (d : Dbl), cs[k]? = some c → ds[k]? = some d →
      ∃ t, P c t ∧ r[k]? = some (if Dbl.lt t d then t else d)
  | [], [], _, _ => ⟨[], rfl, rfl, by simp⟩
  | c :: cs, d :: ds, h, hall => by
      obtain ⟨t, et, ht⟩ := hall c List.mem_cons_self
      obtain ⟨r, er, hl, hr⟩ := updateMinDistancesD_spec sumSq p P cs ds (by simpa using h) (fun c hc => hall c (List.mem_cons_of_mem _ hc))
      refine ⟨(if Dbl.lt t d then t else d) :: r, ?_, by simp [hl], ?_⟩
      · simp only [updateMinDistancesD, et, er, Option.bind_eq_bind, Option.bind_some]
        rfl
      · intro k c' d' hc hd
        cases k with
        | zero => cases hc; cases hd; exact ⟨t, ht, rfl⟩
        | succ k => exact hr k c' d' hc hd
  | [], _ :: _, h, _ => by simp at h
  | _ :: _, [], h, _ => by simp at h

theorem sparseStepD_spec (sumSq : List Dbl → Dbl) (hsum : SquareContract sumSq) (m : Nat) (hm : m ≤ 2 ^ 40) (cands : List (List Dbl)) (hc : ∀ c ∈ cands, SmallRow m c) (s : SparseState Dbl)
    (h : SparseInvD m cands s) (hne : s.candidates ≠ []) : ∃ s', sparseStepD sumSq s = some s' ∧ SparseInvD m cands s' ∧ s'.points.length = s.points.length + 1 := by
  have hpos := List.length_pos_iff.mpr hne
  have hdne : s.minDistances ≠ [] := by intro h0; have := h.len; rw [h0] at this; simp only [List.length_nil] at this; omega
  obtain ⟨qs, eqs, -⟩ := exists_fin_list s.minDistances h.fin
  have hqne : qs ≠ [] := by intro h0; rw [h0] at eqs; exact hdne eqs
  obtain ⟨dp, hdp', _, hmax⟩ := Gapp.Props.maxElement_get qs hqne
  have hidxe : maxElement s.minDistances = maxElement qs := by
    rw [eqs]
    exact maxElement_map Dbl.fin (fun _ => True) (fun a b _ _ => ⟨fun h => of_decide_eq_true h, fun h => decide_eq_true h⟩) qs (by simp)
  set idx := maxElement s.minDistances with hidx
  rw [← hidxe] at hdp'
  have hdp : s.minDistances[idx]? = some (.fin dp) := by rw [eqs, List.getElem?_map, hdp']; rfl
  have hidxl : idx < s.candidates.length := by rw [← h.len]; exact (List.getElem?_eq_some_iff.mp hdp).1
  obtain ⟨p, hp⟩ : ∃ p, s.candidates[idx]? = some p := ⟨_, List.getElem?_eq_getElem hidxl⟩
  obtain ⟨cs, ecs, cperm, clen, cget⟩ := swap_last_dropLast s.candidates idx p hp
  obtain ⟨ds, eds, dperm, dlen, dget⟩ := swap_last_dropLast s.minDistances idx _ hdp
  have hlen' : cs.dropLast.length = ds.dropLast.length := by rw [List.length_dropLast, List.length_dropLast, clen, dlen, h.len]
  have hmemc : ∀ q, q ∈ p :: cs.dropLast ↔ q ∈ s.candidates := fun q => cperm.mem_iff
  have hin : ∀ q ∈ s.candidates, SmallRow m q := fun q hq => hc q (h.perm.mem_iff.1 (List.mem_append_right _ hq))
  have hpS : SmallRow m p := hin p (List.mem_of_getElem? hp)
  obtain ⟨r, er, rlen, hr⟩ := updateMinDistancesD_spec sumSq p
    (fun c t => ∃ q : ℚ, t = .fin q ∧ (1 - (m + 3) / 2 ^ 52) * sqDistQ c p - (m + 1) * 2 ^ (-1074 : ℤ) ≤ q ∧ q ≤ (1 + (m + 3) / 2 ^ 52) * sqDistQ c p + (m + 1) * 2 ^ (-1074 : ℤ)) cs.dropLast ds.dropLast hlen' (by
      intro c hcm
      obtain ⟨t, et, h1, h2⟩ := euclideanDistanceSqD_err sumSq hsum m hm c p (hin c ((hmemc c).1 (List.mem_cons_of_mem _ hcm))) hpS
      exact ⟨_, et, t, rfl, h1, h2⟩)
  have harg : argmax false s.minDistances = some idx := by
    unfold argmax
    rw [if_pos (List.length_pos_iff.mpr hdne), if_neg (by simp)]
  -- the new distances
  have hnew : ∀ (k : Nat) (c : List Dbl), cs.dropLast[k]? = some c → ∃ (k' : Nat) (d0 q : ℚ), s.candidates[k']? = some c ∧ s.minDistances[k']? = some (.fin d0) ∧ r[k]? = some (.fin (min d0 q)) ∧
      (1 - (m + 3) / 2 ^ 52) * sqDistQ c p - (m + 1) * 2 ^ (-1074 : ℤ) ≤ q ∧ q ≤ (1 + (m + 3) / 2 ^ 52) * sqDistQ c p + (m + 1) * 2 ^ (-1074 : ℤ) := by
    intro k c hck
    have hkl : k < s.candidates.length - 1 := by
      have := (List.getElem?_eq_some_iff.mp hck).1
      rw [List.length_dropLast, clen] at this
      exact this
    obtain ⟨d0, hd0⟩ : ∃ d0, ds.dropLast[k]? = some d0 := ⟨_, List.getElem?_eq_getElem (by rw [← hlen', List.length_dropLast, clen]; exact hkl)⟩
    obtain ⟨t, ⟨q, rfl, hq1, hq2⟩, hrk⟩ := hr k c d0 hck hd0
    have hold : ∃ k' : Nat, s.candidates[k']? = some c ∧ s.minDistances[k']? = some d0 := by
      rw [cget k hkl] at hck
      rw [dget k (by rw [h.len]; exact hkl)] at hd0
      by_cases hki : k = idx
      · rw [if_pos hki] at hck hd0
        exact ⟨_, hck, by rw [← h.len]; exact hd0⟩
      · rw [if_neg hki] at hck hd0
        exact ⟨k, hck, hd0⟩
    obtain ⟨k', hc', hd'⟩ := hold
    obtain ⟨e0, rfl, -⟩ := h.fin d0 (List.mem_of_getElem? hd')
    refine ⟨k', e0, q, hc', hd', ?_, hq1, hq2⟩
    rw [hrk]
    by_cases hlt : q < e0
    · rw [if_pos (show Dbl.lt (.fin q) (.fin e0) = true from decide_eq_true hlt), min_eq_right hlt.le]
    · rw [if_neg (by intro hcon; exact hlt (of_decide_eq_true hcon)), min_eq_left (not_lt.1 hlt)]
  refine ⟨⟨s.points ++ [p], cs.dropLast, r⟩, ?_, ⟨?_, rlen, ?_, ?_, ?_⟩, by simp⟩
  · unfold sparseStepD
    simp only [harg, hp, ecs, eds, er, Option.bind_eq_bind, Option.bind_some]
    rfl
  · show ((s.points ++ [p]) ++ cs.dropLast).Perm cands
    rw [List.append_assoc, List.singleton_append]
    exact (cperm.append_left s.points).trans h.perm
  · intro x hx
    dsimp only at hx
    obtain ⟨k, hk⟩ := List.mem_iff_getElem?.mp hx
    obtain ⟨c, hck⟩ : ∃ c, cs.dropLast[k]? = some c := ⟨_, List.getElem?_eq_getElem (by rw [← rlen]; exact (List.getElem?_eq_some_iff.mp hk).1)⟩
    obtain ⟨_, d0, q, _, _, e, _⟩ := hnew k c hck
    rw [hk, Option.some.injEq] at e
    exact ⟨_, e, trivial⟩
  · intro k c d hck hd
    dsimp only at hck hd ⊢
    obtain ⟨k', d0, q, hc', hd', e, hq1, hq2⟩ := hnew k c hck
    rw [hd, Option.some.injEq, Dbl.fin.injEq] at e
    subst e
    obtain ⟨⟨a, ha, e1⟩, h2⟩ := h.dist k' c d0 hc' hd'
    rw [sqDistQ_comm c p] at hq1 hq2
    constructor
    · rcases min_choice d0 q with e | e
      · exact ⟨a, List.mem_append_left _ ha, by rw [e]; exact e1⟩
      · exact ⟨p, by simp, by rw [e]; exact hq1⟩
    · intro a ha
      rcases List.mem_append.mp ha with ha | ha
      · exact le_trans (min_le_left _ _) (h2 a ha)
      · rw [List.mem_singleton.mp ha]; exact le_trans (min_le_right _ _) hq2
  · intro i q hi hq x hx
    dsimp only at hq hx ⊢
    rcases Nat.lt_or_ge i s.points.length with hlt | hge
    · rw [List.getElem?_append_left hlt] at hq
      rw [List.take_append_of_le_length hlt.le]
      refine h.greedy i q hi hq x ?_
      rw [List.drop_append_of_le_length hlt.le] at hx
      rcases List.mem_append.mp hx with hx | hx
      · rcases List.mem_append.mp hx with hx | hx
        · exact List.mem_append_left _ hx
        · exact List.mem_append_right _ ((hmemc x).mp (by rw [List.mem_singleton.mp hx]; simp))
      · exact List.mem_append_right _ ((hmemc x).mp (by simp [hx]))
    · have hil := (List.getElem?_eq_some_iff.mp hq).1
      have hie : i = s.points.length := by simp only [List.length_append, List.length_singleton] at hil; omega
      subst hie
      have hqp : q = p := by simpa using hq.symm
      subst hqp
      rw [List.take_append_of_le_length (le_refl _), List.take_length]
      have hxc : x ∈ s.candidates := by
        apply (hmemc x).mp
        rw [List.drop_append_of_le_length (le_refl _), List.drop_length] at hx
        simpa using hx
      obtain ⟨k, hk⟩ := List.mem_iff_getElem?.mp hxc
      obtain ⟨d, hd⟩ : ∃ d, s.minDistances[k]? = some d := ⟨_, List.getElem?_eq_getElem (by rw [h.len]; exact (List.getElem?_eq_some_iff.mp hk).1)⟩
      obtain ⟨dq, rfl, -⟩ := h.fin d (List.mem_of_getElem? hd)
      obtain ⟨⟨a, ha, e1⟩, _⟩ := h.dist k x dq hk hd
      obtain ⟨_, h2⟩ := h.dist idx q dp hp hdp
      have hdm : dq ≤ dp := by
        rw [eqs, List.getElem?_map] at hd
        obtain ⟨y, hy, ey⟩ := Option.map_eq_some_iff.1 hd
        cases ey
        exact hmax dq (List.mem_of_getElem? hy)
      refine ⟨a, ha, fun b hb => ?_⟩
      have h3 := h2 b hb
      have e73 : ((m : ℚ) + 1) * 2 ^ (-1073 : ℤ) = (m + 1) * 2 ^ (-1074 : ℤ) + (m + 1) * 2 ^ (-1074 : ℤ) := by
        have e2 : (2 : ℚ) ^ (-1073 : ℤ) = 2 * 2 ^ (-1074 : ℤ) := by
          have := two_zpow_add 1 (-1074)
          norm_num at this
          simpa using this
        rw [e2]
        ring
      rw [e73]
      have aux : ∀ A B d e κ : ℚ, A - κ ≤ d → d ≤ e → e ≤ B + κ → A ≤ B + (κ + κ) := by intro A B d e κ _ _ _; linarith
      exact aux _ _ _ _ _ e1 hdm h3

theorem sparseLoopD_spec (sumSq : List Dbl → Dbl) (hsum : SquareContract sumSq) (m : Nat) (hm : m ≤ 2 ^ 40) (cands : List (List Dbl)) (hc : ∀ c ∈ cands, SmallRow m c) :
    ∀ (n : Nat) (s : SparseState Dbl), SparseInvD m cands s → n ≤ s.candidates.length → ∃ s', sparseLoopD sumSq n s = some s' ∧ SparseInvD m cands s' ∧ s'.points.length = s.points.length + n
  | 0, s, h, _ => ⟨s, rfl, h, rfl⟩
  | n + 1, s, h, hn => by
      obtain ⟨s1, e1, h1, l1⟩ := sparseStepD_spec sumSq hsum m hm cands hc s h (by intro h0; rw [h0] at hn; simp at hn)
      have hlen : s1.candidates.length + 1 = s.candidates.length := by
        have a := h.perm.length_eq
        have b := h1.perm.length_eq
        rw [List.length_append] at a b
        omega
      obtain ⟨s2, e2, h2, l2⟩ := sparseLoopD_spec sumSq hsum m hm cands hc n s1 h1 (by omega)
      refine ⟨s2, ?_, h2, by omega⟩
      unfold sparseLoopD
      rw [e1]
      exact e2

/-! ## Points with as many coordinates as the sequence -/

theorem simplexPointsLoopD_same (F : List Dbl → Option (List Dbl)) (dim : Nat) (e : ℚ) (hF : ∀ p : List Dbl, p.length = dim → (∀ x ∈ p, InUnitInterval x) → ∃ r, F p = some r ∧ OnSimplexUpTo e dim r) :
    ∀ (n : Nat) (g : QuasiRandom Dbl) (p a : List ℚ), g.point = p.map .fin → g.alpha = a.map .fin → QrngOk p a → p.length = dim →
      ∃ pts, simplexPointsLoopD F dim n g = some pts ∧ pts.length = n ∧ ∀ r ∈ pts, OnSimplexUpTo e dim r := by
  intro n
  induction n with
  | zero => intro g p a _ _ _ _; exact ⟨[], rfl, rfl, by simp⟩
  | succ n ih =>
    intro g p a hp ha h hdim
    obtain ⟨r, e, hl, hr, _, hok⟩ := qrngNextD_spec g p a hp ha h
    obtain ⟨v, ev, hv⟩ := hF (r.map .fin) (by simp [hl, hdim]) (fun x hx => by
      obtain ⟨y, hy, rfl⟩ := List.mem_map.1 hx
      exact inUnitInterval_of (hr y hy))
    obtain ⟨pts, e2, hn, hall⟩ := ih { g with point := r.map .fin } r a rfl ha hok (by omega)
    refine ⟨v :: pts, ?_, by simp [hn], fun q hq => ?_⟩
    · rw [simplexPointsLoopD, e]
      simp only [Option.bind_eq_bind, Option.bind_some, ev, if_pos hv.length, e2]
      rfl
    · rcases List.mem_cons.1 hq with rfl | hq
      · exact hv
      · exact hall q hq

end Gapp.ListAux
