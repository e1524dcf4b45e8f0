import Verif.Proofs.Xoroshiro
import Mathlib.Tactic.NormNum.Prime
import Mathlib.Tactic.ReduceModChar
import Mathlib.NumberTheory.LucasPrimality
import Mathlib.Data.Nat.Prime.Basic
/-! The period of Xoroshiro128+ is `2^128 - 1`, and `jump` is `2^96` steps. -/

namespace Gapp.Model

theorem prime_2998279 : Nat.Prime 2998279 := by norm_num

theorem prime_dvd_list {q : Nat} (hq : q.Prime) : ∀ (l : List Nat), (∀ p ∈ l, p.Prime) → q ∣ l.prod → q ∈ l := by
  intro l
  induction l with
  | nil =>
    intro _ h
    simp at h
    exact absurd hq (by rw [h]; exact Nat.not_prime_one)
  | cons p l ih =>
    intro hp h
    rw [List.prod_cons] at h
    rcases (Nat.Prime.dvd_mul hq).mp h with h | h
    · rw [(Nat.prime_dvd_prime_iff_eq hq (hp p (by simp))).mp h]; simp
    · exact List.mem_cons_of_mem _ (ih (fun x hx => hp x (by simp [hx])) h)

theorem prime_67280421310721 : Nat.Prime 67280421310721 := by
  apply lucas_primality _ (3 : ZMod 67280421310721)
  · norm_num only
    reduce_mod_char
  · intro q hq hd
    have := prime_dvd_list hq [2, 2, 2, 2, 2, 2, 2, 2, 5, 47, 373, 2998279]
      (by simp only [List.mem_cons, List.not_mem_nil, or_false]
          rintro p (h | h | h | h | h | h | h | h | h | h | h | h) <;> subst h <;> first | exact prime_2998279 | norm_num)
      (by norm_num; norm_num at hd; exact hd)
    simp only [List.mem_cons, List.not_mem_nil, or_false] at this
    rcases this with (h | h | h | h | h | h | h | h | h | h | h | h) <;> subst h <;> norm_num only <;> reduce_mod_char <;> decide

/-- The prime factors of `2^128 - 1`. -/
def xprimes : List Nat := [3, 5, 17, 257, 641, 65537, 274177, 6700417, 67280421310721]

theorem xprimes_prime : ∀ p ∈ xprimes, p.Prime := by
  simp only [xprimes, List.mem_cons, List.not_mem_nil, or_false]
  rintro p (h | h | h | h | h | h | h | h | h) <;> subst h <;> first | exact prime_67280421310721 | norm_num

theorem xprimes_prod : xprimes.prod = xperiod := by decide

theorem v0_act_one : act 128 1 v0 = v0 := by decide +kernel

theorem iterate_xperiod_v0 : xoroStep^[xperiod] v0 = v0 := by
  rw [← powX_iterate xperiod (by decide), powX_period, v0_act_one]

theorem iterate_div_ne {q : Nat} (hq : q ∈ xprimes) : xoroStep^[xperiod / q] v0 ≠ v0 := by
  have h : ∀ q, act 128 (powX (toBits 128 (xperiod / q))) v0 ≠ v0 → xoroStep^[xperiod / q] v0 ≠ v0 := by
    intro q h
    rwa [powX_iterate (xperiod / q) (lt_of_le_of_lt (Nat.div_le_self _ _) (by decide))] at h
  simp only [xprimes, List.mem_cons, List.not_mem_nil, or_false] at hq
  rcases hq with (h' | h' | h' | h' | h' | h' | h' | h' | h') <;> subst h' <;> apply h
  · exact powX_div3
  · exact powX_div5
  · exact powX_div17
  · exact powX_div257
  · exact powX_div641
  · exact powX_div65537
  · exact powX_div274177
  · exact powX_div6700417
  · exact powX_div67280421310721

theorem minimalPeriod_v0 : Function.minimalPeriod xoroStep v0 = xperiod := by
  have hp : Function.IsPeriodicPt xoroStep xperiod v0 := iterate_xperiod_v0
  have hd := hp.minimalPeriod_dvd
  obtain ⟨k, hk⟩ := hd
  by_contra hne
  have hk1 : k ≠ 1 := by rintro rfl; rw [Nat.mul_one] at hk; exact hne hk.symm
  obtain ⟨q, hq, hqk⟩ := Nat.exists_prime_and_dvd hk1
  have hmem : q ∈ xprimes := prime_dvd_list hq xprimes xprimes_prime
    (by rw [xprimes_prod, hk]; exact Dvd.dvd.mul_left hqk _)
  apply iterate_div_ne hmem
  obtain ⟨r, rfl⟩ := hqk
  have hdiv : xperiod / q = Function.minimalPeriod xoroStep v0 * r := by
    rw [hk]
    apply Nat.div_eq_of_eq_mul_left hq.pos
    ring
  rw [hdiv]
  exact (Function.isPeriodicPt_minimalPeriod xoroStep v0).mul_const r

end Gapp.Model
