import Verif.Proofs.XoroshiroPeriod
import Mathlib.Data.Fintype.EquivFin
import Mathlib.Tactic.Ring
/-! Consequences of the period for all states, the jump function, and the bookkeeping of the generators. -/

namespace Gapp.Model

/-- The state as a number. -/
def xcode (s : XState) : Nat := s.1.toNat + 2 ^ 64 * s.2.toNat

theorem xcode_lt (s : XState) : xcode s < 2 ^ 128 := by
  have h1 := s.1.isLt
  have h2 := s.2.isLt
  unfold xcode
  omega

theorem xcode_inj {s t : XState} (h : xcode s = xcode t) : s = t := by
  have h1 := s.1.isLt
  have h2 := s.2.isLt
  have h3 := t.1.isLt
  have h4 := t.2.isLt
  unfold xcode at h
  apply Prod.ext
  · apply BitVec.eq_of_toNat_eq; omega
  · apply BitVec.eq_of_toNat_eq; omega

theorem xcode_zero {s : XState} (h : xcode s = 0) : s = xzero := xcode_inj (by rw [h]; rfl)

theorem iterate_zero_state (n : Nat) : xoroStep^[n] xzero = xzero := by
  induction n with
  | zero => rfl
  | succ n ih => rw [Function.iterate_succ_apply', ih, xoroStep_zero]

theorem v0_ne_zero : v0 ≠ xzero := by decide

theorem orbit_ne_zero {i : Nat} (hi : i < xperiod) : xoroStep^[i] v0 ≠ xzero := by
  intro h
  apply v0_ne_zero
  have : xoroStep^[(xperiod - i) + i] v0 = xzero := by rw [Function.iterate_add_apply, h, iterate_zero_state]
  rw [Nat.sub_add_cancel (Nat.le_of_lt hi), iterate_xperiod_v0] at this
  exact this

/-- Every non-zero state is reached from `v0`. -/
theorem orbit_all (s : XState) (hs : s ≠ xzero) : ∃ i, xoroStep^[i] v0 = s := by
  let f : Fin xperiod → Fin xperiod := fun i => ⟨xcode (xoroStep^[i.val] v0) - 1, by
    have := xcode_lt (xoroStep^[i.val] v0)
    have h : xperiod = 2 ^ 128 - 1 := rfl
    have h0 : xcode (xoroStep^[i.val] v0) ≠ 0 := fun h => orbit_ne_zero i.isLt (xcode_zero h)
    omega⟩
  have hinj : Function.Injective f := by
    intro i j hij
    have h1 : xcode (xoroStep^[i.val] v0) ≠ 0 := fun h => orbit_ne_zero i.isLt (xcode_zero h)
    have h2 : xcode (xoroStep^[j.val] v0) ≠ 0 := fun h => orbit_ne_zero j.isLt (xcode_zero h)
    have h3 : xcode (xoroStep^[i.val] v0) - 1 = xcode (xoroStep^[j.val] v0) - 1 := Fin.mk.inj_iff.mp hij
    have h4 : xoroStep^[i.val] v0 = xoroStep^[j.val] v0 := xcode_inj (by omega)
    have h5 := Function.iterate_injOn_Iio_minimalPeriod (f := xoroStep) (x := v0)
    rw [minimalPeriod_v0] at h5
    exact Fin.ext (h5 (Set.mem_Iio.mpr i.isLt) (Set.mem_Iio.mpr j.isLt) h4)
  have hsurj : Function.Surjective f := Finite.injective_iff_surjective.mp hinj
  have hs0 : xcode s ≠ 0 := fun h => hs (xcode_zero h)
  obtain ⟨i, hi⟩ := hsurj ⟨xcode s - 1, by
    have := xcode_lt s
    have h : xperiod = 2 ^ 128 - 1 := rfl
    omega⟩
  have h3 : xcode (xoroStep^[i.val] v0) - 1 = xcode s - 1 := Fin.mk.inj_iff.mp hi
  have h1 : xcode (xoroStep^[i.val] v0) ≠ 0 := fun h => orbit_ne_zero i.isLt (xcode_zero h)
  exact ⟨i.val, xcode_inj (by omega)⟩

theorem minimalPeriod_all (s : XState) (hs : s ≠ xzero) : Function.minimalPeriod xoroStep s = xperiod := by
  obtain ⟨i, rfl⟩ := orbit_all s hs
  rw [Function.minimalPeriod_apply_iterate, minimalPeriod_v0]
  exact ⟨xperiod, by decide, iterate_xperiod_v0⟩

theorem iterate_ne_zero (s : XState) (hs : s ≠ xzero) (n : Nat) : xoroStep^[n] s ≠ xzero := by
  have hp : xoroStep^[xperiod] s = s := by
    have h := Function.iterate_minimalPeriod (f := xoroStep) (x := s)
    rwa [minimalPeriod_all s hs] at h
  intro h
  apply hs
  have h1 : xoroStep^[xperiod * n] s = s := by
    have : Function.IsPeriodicPt xoroStep xperiod s := hp
    exact this.mul_const n
  have h2 : xperiod * n = (xperiod * n - n) + n := by
    have : n ≤ xperiod * n := Nat.le_mul_of_pos_left n (by decide)
    omega
  rw [← h1, h2, Function.iterate_add_apply, h, iterate_zero_state]

/-! ### jump -/

theorem jumpLoop_eq (J : BitVec 64) : ∀ (k n : Nat) (new s : XState),
    jumpLoop J k n (new, s) = (xadd new (act k (J.toNat / 2 ^ n) s), xoroStep^[k] s) := by
  intro k
  induction k with
  | zero => intro n new s; simp [jumpLoop, act, xadd_zero]
  | succ k ih =>
    intro n new s
    rw [jumpLoop, ih, act]
    have h1 : J.toNat / 2 ^ n / 2 = J.toNat / 2 ^ (n + 1) := by rw [Nat.div_div_eq_div_mul, Nat.pow_succ]
    rw [h1, ← xadd_assoc, ← Function.iterate_succ_apply xoroStep k s]
    have h2 : J.getLsbD n = decide (J.toNat / 2 ^ n % 2 = 1) := by
      rw [BitVec.getLsbD, Nat.testBit_eq_decide_div_mod_eq]
    rw [h2]
    by_cases h : J.toNat / 2 ^ n % 2 = 1
    · rw [if_pos h, if_pos (by simpa using h)]; rfl
    · rw [if_neg h, if_neg (by simpa using h), xadd_zero]

theorem act_split : ∀ (n m a b : Nat) (s : XState), a < 2 ^ n →
    act (n + m) (a + 2 ^ n * b) s = xadd (act n a s) (act m b (xoroStep^[n] s)) := by
  intro n
  induction n with
  | zero =>
    intro m a b s ha
    have : a = 0 := by simpa using ha
    subst this
    simp [act, zero_xadd]
  | succ n ih =>
    intro m a b s ha
    have hn : n + 1 + m = (n + m) + 1 := by omega
    rw [hn, act, act]
    have e : 2 ^ (n + 1) * b = 2 * (2 ^ n * b) := by rw [Nat.pow_succ]; ring
    have h1 : (a + 2 ^ (n + 1) * b) % 2 = a % 2 := by rw [e]; omega
    have h2 : (a + 2 ^ (n + 1) * b) / 2 = a / 2 + 2 ^ n * b := by rw [e]; omega
    rw [h1, h2, ih m (a / 2) b _ (by rw [Nat.pow_succ] at ha; omega), xadd_assoc, ← Function.iterate_succ_apply xoroStep n s]

/-- `jump` on the state `v0`. -/
theorem xoroJump_act (s : XState) : xoroJump s = act 128 0xdddf9b1090aa7ac1d2a98b26625eee7b s := by
  have h := act_split 64 64 0xd2a98b26625eee7b 0xdddf9b1090aa7ac1 s (by decide)
  have e : (0xd2a98b26625eee7b + 2 ^ 64 * 0xdddf9b1090aa7ac1 : Nat) = 0xdddf9b1090aa7ac1d2a98b26625eee7b := by decide
  rw [e] at h
  change act 128 0xdddf9b1090aa7ac1d2a98b26625eee7b s = _ at h
  rw [h]
  unfold xoroJump
  simp only [jumpLoop_eq]
  have z : ((0#64, 0#64) : XState) = xzero := rfl
  rw [z, zero_xadd]
  have e1 : (0xd2a98b26625eee7b#64).toNat / 2 ^ 0 = 0xd2a98b26625eee7b := by decide
  have e2 : (0xdddf9b1090aa7ac1#64).toNat / 2 ^ 0 = 0xdddf9b1090aa7ac1 := by decide
  rw [e1, e2]

theorem xoroJump_eq (s : XState) : xoroJump s = xoroStep^[2 ^ 96] s := by
  by_cases hs : s = xzero
  · subst hs; rw [xoroJump_act, act_zero_state, iterate_zero_state]
  · obtain ⟨i, rfl⟩ := orbit_all s hs
    rw [xoroJump_act, act_iterate, ← powX_jump, powX_iterate (2 ^ 96) (by decide), ← Function.iterate_add_apply,
      ← Function.iterate_add_apply, Nat.add_comm]

theorem xoroJump_iterate (k : Nat) (s : XState) : xoroJump^[k] s = xoroStep^[2 ^ 96 * k] s := by
  induction k with
  | zero => rfl
  | succ k ih =>
    rw [Function.iterate_succ_apply', ih, xoroJump_eq, ← Function.iterate_add_apply]
    congr 1; ring

/-! ### seeding -/

theorem xorshift_zero (x : BitVec 64) (k : Nat) (hk : 0 < k) (h : x ^^^ (x >>> k) = 0#64) : x = 0#64 := by
  have h1 : x = x >>> k := by
    have h2 : x ^^^ (x ^^^ (x >>> k)) = x ^^^ 0#64 := by rw [h]
    rw [← BitVec.xor_assoc, BitVec.xor_self, BitVec.zero_xor, BitVec.xor_zero] at h2
    exact h2.symm
  have h2 : x.toNat = x.toNat / 2 ^ k := by
    have := congrArg BitVec.toNat h1
    rwa [BitVec.toNat_ushiftRight, Nat.shiftRight_eq_div_pow] at this
  apply BitVec.eq_of_toNat_eq
  rcases Nat.eq_zero_or_pos x.toNat with h0 | h0
  · exact h0
  · have := Nat.div_lt_self h0 (Nat.one_lt_two_pow (by omega : k ≠ 0))
    omega

theorem mul_zero_of_inv (x c ci : BitVec 64) (hc : c * ci = 1#64) (h : x * c = 0#64) : x = 0#64 := by
  have h1 : x * c * ci = 0#64 * ci := by rw [h]
  rw [BitVec.mul_assoc, hc, BitVec.mul_one, BitVec.zero_mul] at h1
  exact h1

theorem splitmixMix_zero (s : BitVec 64) (h : splitmixMix s = 0#64) : s = 0#64 := by
  unfold splitmixMix at h
  have h1 := xorshift_zero _ 31 (by decide) h
  have h2 := mul_zero_of_inv _ _ 0x319642b2d24d8ec3#64 (by decide) h1
  have h3 := xorshift_zero _ 27 (by decide) h2
  have h4 := mul_zero_of_inv _ _ 0x96de1b173f119089#64 (by decide) h3
  exact xorshift_zero _ 30 (by decide) h4

theorem seedSequence_ne_zero (seed : BitVec 64) : seedSequence seed ≠ xzero := by
  intro h
  have h1 := splitmixMix_zero _ (congrArg Prod.fst h)
  have h2 := splitmixMix_zero _ (congrArg Prod.snd h)
  rw [show (splitmixNext seed).2 = seed + 0x9e3779b97f4a7c15#64 from rfl] at h2
  rw [h1] at h2
  exact absurd h2 (by decide)

end Gapp.Model
