import Verif.Model.Rng
import Mathlib.Dynamics.PeriodicPts.Defs
import Mathlib.Data.Nat.Prime.Basic
/-! The period of Xoroshiro128+ and its jump function. -/

namespace Gapp.Model

/-- The zero state. -/
def xzero : XState := (0#64, 0#64)

/-- Addition of states over the field with two elements. -/
def xadd (a b : XState) : XState := (a.1 ^^^ b.1, a.2 ^^^ b.2)

theorem xadd_zero (a : XState) : xadd a xzero = a := by simp [xadd, xzero]
theorem zero_xadd (a : XState) : xadd xzero a = a := by simp [xadd, xzero]
theorem xadd_comm (a b : XState) : xadd a b = xadd b a := by simp only [xadd, BitVec.xor_comm]
theorem xadd_assoc (a b c : XState) : xadd (xadd a b) c = xadd a (xadd b c) := by simp only [xadd, BitVec.xor_assoc]
theorem xadd_self (a : XState) : xadd a a = xzero := by simp [xadd, xzero]

theorem rotl_xor (a b : BitVec 64) (k : Nat) : (a ^^^ b).rotateLeft k = a.rotateLeft k ^^^ b.rotateLeft k := by
  ext i hi
  simp only [BitVec.getElem_xor, BitVec.getElem_rotateLeft]
  split <;> simp [BitVec.getLsbD_xor]

theorem shl_xor (a b : BitVec 64) (k : Nat) : (a ^^^ b) <<< k = (a <<< k) ^^^ (b <<< k) := by
  rw [BitVec.shiftLeft_xor_distrib]

/-- The step is linear. -/
theorem xoroStep_xadd (a b : XState) : xoroStep (xadd a b) = xadd (xoroStep a) (xoroStep b) := by
  obtain ⟨a1, a2⟩ := a
  obtain ⟨b1, b2⟩ := b
  have h : a1 ^^^ b1 ^^^ (a2 ^^^ b2) = (a1 ^^^ a2) ^^^ (b1 ^^^ b2) := by ac_rfl
  show ((a1 ^^^ b1).rotateLeft 24 ^^^ (a1 ^^^ b1 ^^^ (a2 ^^^ b2)) ^^^ ((a1 ^^^ b1 ^^^ (a2 ^^^ b2)) <<< 16),
      (a1 ^^^ b1 ^^^ (a2 ^^^ b2)).rotateLeft 37) =
    ((a1.rotateLeft 24 ^^^ (a1 ^^^ a2) ^^^ ((a1 ^^^ a2) <<< 16)) ^^^ (b1.rotateLeft 24 ^^^ (b1 ^^^ b2) ^^^ ((b1 ^^^ b2) <<< 16)),
      (a1 ^^^ a2).rotateLeft 37 ^^^ (b1 ^^^ b2).rotateLeft 37)
  rw [h, rotl_xor, rotl_xor, shl_xor]
  generalize a1.rotateLeft 24 = p
  generalize b1.rotateLeft 24 = q
  generalize (a1 ^^^ a2) <<< 16 = r
  generalize (b1 ^^^ b2) <<< 16 = t
  generalize a1 ^^^ a2 = u
  generalize b1 ^^^ b2 = w
  have : p ^^^ q ^^^ (u ^^^ w) ^^^ (r ^^^ t) = p ^^^ u ^^^ r ^^^ (q ^^^ w ^^^ t) := by ac_rfl
  rw [this]

theorem xoroStep_zero : xoroStep xzero = xzero := by decide

/-- The polynomial with the coefficients in the lowest `n` bits of `a`, applied to the step function and the state `v`. -/
def act : Nat → Nat → XState → XState
  | 0, _, _ => xzero
  | n + 1, a, v => xadd (if a % 2 = 1 then v else xzero) (act n (a / 2) (xoroStep v))

theorem act_xadd : ∀ (n a : Nat) (u v : XState), act n a (xadd u v) = xadd (act n a u) (act n a v) := by
  intro n
  induction n with
  | zero => intro a u v; simp [act, xadd_zero]
  | succ n ih =>
    intro a u v
    simp only [act, xoroStep_xadd, ih]
    split
    · simp only [xadd, Prod.mk.injEq]; constructor <;> ac_rfl
    · simp only [zero_xadd]

theorem act_zero_state : ∀ (n a : Nat), act n a xzero = xzero := by
  intro n
  induction n with
  | zero => intro a; rfl
  | succ n ih => intro a; simp [act, xoroStep_zero, ih, xadd_zero]

theorem act_step : ∀ (n a : Nat) (v : XState), act n a (xoroStep v) = xoroStep (act n a v) := by
  intro n
  induction n with
  | zero => intro a v; simp [act, xoroStep_zero]
  | succ n ih =>
    intro a v
    simp only [act, xoroStep_xadd, ih]
    split
    · rfl
    · rw [xoroStep_zero]

theorem act_iterate (n a m : Nat) (v : XState) : act n a (xoroStep^[m] v) = xoroStep^[m] (act n a v) := by
  induction m with
  | zero => rfl
  | succ m ih => rw [Function.iterate_succ_apply', Function.iterate_succ_apply', act_step, ih]

theorem act_xor : ∀ (n a b : Nat) (v : XState), act n (a ^^^ b) v = xadd (act n a v) (act n b v) := by
  intro n
  induction n with
  | zero => intro a b v; simp [act, xadd_zero]
  | succ n ih =>
    intro a b v
    simp only [act, Nat.xor_div_two, ih]
    have hm : (a ^^^ b) % 2 = (a % 2 + b % 2) % 2 := by
      have h := Nat.testBit_xor a b 0
      simp only [Nat.testBit_zero] at h
      rcases Nat.mod_two_eq_zero_or_one a with ha | ha <;> rcases Nat.mod_two_eq_zero_or_one b with hb | hb <;>
        rcases Nat.mod_two_eq_zero_or_one (a ^^^ b) with hc | hc <;> simp [ha, hb, hc] at h ⊢
    generalize act n (a / 2) (xoroStep v) = A
    generalize act n (b / 2) (xoroStep v) = B
    rcases Nat.mod_two_eq_zero_or_one a with ha | ha <;> rcases Nat.mod_two_eq_zero_or_one b with hb | hb
    · rw [hm, ha, hb]; simp only [Nat.add_zero, Nat.zero_mod, Nat.zero_ne_one, if_false, zero_xadd]
    · rw [hm, ha, hb]; simp only [Nat.zero_add, Nat.one_mod, Nat.zero_ne_one, if_false, if_true, zero_xadd]
      rw [← xadd_assoc, ← xadd_assoc, xadd_comm v A]
    · rw [hm, ha, hb]; simp only [Nat.add_zero, Nat.one_mod, Nat.zero_ne_one, if_false, if_true, zero_xadd]
      rw [xadd_assoc]
    · rw [hm, ha, hb, if_neg (by decide), if_pos rfl, zero_xadd, xadd_comm v A, xadd_assoc, ← xadd_assoc v v B, xadd_self, zero_xadd]

/-- The polynomial `2 a` is `x a`. -/
theorem act_double (n a : Nat) (v : XState) : act (n + 1) (2 * a) v = xoroStep (act n a v) := by
  have h : (2 * a) / 2 = a := by omega
  simp only [act, Nat.mul_mod_right, h]
  rw [if_neg (by omega), zero_xadd, act_step]

/-- More bits do not matter if they are zero. -/
theorem act_bits : ∀ (n m a : Nat) (v : XState), a < 2 ^ n → n ≤ m → act m a v = act n a v := by
  intro n
  induction n with
  | zero =>
    intro m a v ha _
    have : a = 0 := by simpa using ha
    subst this
    clear ha
    have : ∀ (m : Nat) (v : XState), act m 0 v = xzero := by
      intro m
      induction m with
      | zero => intro v; rfl
      | succ m ih => intro v; simp only [act, Nat.zero_mod, Nat.zero_div, ih]; rw [if_neg (by decide)]; rfl
    rw [this]; rfl
  | succ n ih =>
    intro m a v ha hm
    obtain ⟨m, rfl⟩ : ∃ k, m = k + 1 := ⟨m - 1, by omega⟩
    simp only [act]
    rw [ih m (a / 2) _ (by rw [Nat.pow_succ] at ha; omega) (by omega)]

/-- The characteristic polynomial of the step function. -/
def charPoly : Nat := 0x10008828e513b43d5095b8f76579aa001

/-- Multiplication by `x` modulo the characteristic polynomial. -/
def xtime (a : Nat) : Nat := if 2 * a < 2 ^ 128 then 2 * a else (2 * a) ^^^ charPoly

/-- Multiplication modulo the characteristic polynomial; `n` is the number of bits of `a` to use. -/
def mulMod : Nat → Nat → Nat → Nat
  | 0, _, _ => 0
  | n + 1, a, b => (if a % 2 = 1 then b else 0) ^^^ mulMod n (a / 2) (xtime b)

/-- `x ^ e` modulo the characteristic polynomial, where the bits of `e` are given from the lowest to the highest. -/
def powX : List Bool → Nat
  | [] => 1
  | b :: bs =>
    let p := powX bs
    let q := mulMod 128 p p
    if b then xtime q else q

/-- The number with the given bits. -/
def bitsVal : List Bool → Nat
  | [] => 0
  | b :: bs => 2 * bitsVal bs + (if b then 1 else 0)

/-- The state from which the orbit is examined. -/
def v0 : XState := (1#64, 0#64)

theorem act_charPoly : act 129 charPoly v0 = xzero := by decide +kernel

theorem charPoly_lt : charPoly < 2 ^ 129 := by decide

theorem xtime_lt {a : Nat} (h : a < 2 ^ 128) : xtime a < 2 ^ 128 := by
  unfold xtime
  split
  · assumption
  · next hge =>
    have h2 : 2 * a < 2 ^ 129 := by rw [Nat.pow_succ]; omega
    have hx : (2 * a) ^^^ charPoly < 2 ^ 129 := Nat.xor_lt_two_pow h2 charPoly_lt
    have hb1 : (2 * a).testBit 128 = true := by
      rw [Nat.testBit_eq_decide_div_mod_eq]
      have : 2 * a / 2 ^ 128 = 1 := by
        apply Nat.div_eq_of_lt_le
        · omega
        · rw [Nat.pow_succ] at h2; omega
      rw [this]; rfl
    have hb2 : charPoly.testBit 128 = true := by decide
    apply Nat.lt_pow_two_of_testBit
    intro i hi
    by_cases h128 : i = 128
    · subst h128
      rw [Nat.testBit_xor, hb1, hb2]; rfl
    · apply Nat.testBit_lt_two_pow
      exact lt_of_lt_of_le hx (Nat.pow_le_pow_right (by decide) (by omega))

theorem act_xtime {a : Nat} (h : a < 2 ^ 128) : act 128 (xtime a) v0 = xoroStep (act 128 a v0) := by
  rw [← act_double, ← act_bits 128 129 (xtime a) v0 (xtime_lt h) (by omega)]
  unfold xtime
  split
  · rfl
  · rw [act_xor, act_charPoly, xadd_zero]

theorem mulMod_spec : ∀ (n a b : Nat), b < 2 ^ 128 → mulMod n a b < 2 ^ 128 ∧
    act 128 (mulMod n a b) v0 = act n a (act 128 b v0) := by
  intro n
  induction n with
  | zero =>
    intro a b _
    refine ⟨by simp [mulMod], ?_⟩
    simp only [mulMod]
    rw [act_bits 0 128 0 v0 (by decide) (by omega)]; rfl
  | succ n ih =>
    intro a b hb
    obtain ⟨h1, h2⟩ := ih (a / 2) (xtime b) (xtime_lt hb)
    constructor
    · simp only [mulMod]
      apply Nat.xor_lt_two_pow _ h1
      split
      · exact hb
      · decide
    · rw [mulMod, act_xor, h2, act_xtime hb]
      show _ = xadd (if a % 2 = 1 then act 128 b v0 else xzero) (act n (a / 2) (xoroStep (act 128 b v0)))
      congr 1
      split
      · rfl
      · rw [act_bits 0 128 0 v0 (by decide) (by omega)]; rfl

theorem powX_spec : ∀ (bs : List Bool), powX bs < 2 ^ 128 ∧ act 128 (powX bs) v0 = xoroStep^[bitsVal bs] v0 := by
  intro bs
  induction bs with
  | nil => exact ⟨by decide, by decide +kernel⟩
  | cons b bs ih =>
    obtain ⟨h1, h2⟩ := ih
    obtain ⟨h3, h4⟩ := mulMod_spec 128 (powX bs) (powX bs) h1
    have hq : act 128 (mulMod 128 (powX bs) (powX bs)) v0 = xoroStep^[2 * bitsVal bs] v0 := by
      rw [h4, h2, act_iterate, h2, ← Function.iterate_add_apply]
      congr 1; omega
    cases b with
    | false => exact ⟨h3, hq⟩
    | true =>
      refine ⟨xtime_lt h3, ?_⟩
      simp only [powX, if_true, bitsVal, act_xtime h3, hq, ← Function.iterate_succ_apply']

/-- The bits of a number, lowest first. -/
def toBits : Nat → Nat → List Bool
  | 0, _ => []
  | n + 1, a => (a % 2 == 1) :: toBits n (a / 2)

theorem bitsVal_toBits : ∀ (n a : Nat), a < 2 ^ n → bitsVal (toBits n a) = a := by
  intro n
  induction n with
  | zero => intro a h; simp at h; subst h; rfl
  | succ n ih =>
    intro a h
    rw [Nat.pow_succ] at h
    simp only [toBits, bitsVal, ih (a / 2) (by omega), beq_iff_eq]
    split <;> omega

theorem powX_iterate (e : Nat) (h : e < 2 ^ 128) : act 128 (powX (toBits 128 e)) v0 = xoroStep^[e] v0 := by
  rw [(powX_spec _).2, bitsVal_toBits 128 e h]

/-- The number of non-zero states. -/
def xperiod : Nat := 2 ^ 128 - 1

theorem powX_period : powX (toBits 128 xperiod) = 1 := by decide +kernel

theorem powX_div3 : act 128 (powX (toBits 128 (xperiod / 3))) v0 ≠ v0 := by decide +kernel
theorem powX_div5 : act 128 (powX (toBits 128 (xperiod / 5))) v0 ≠ v0 := by decide +kernel
theorem powX_div17 : act 128 (powX (toBits 128 (xperiod / 17))) v0 ≠ v0 := by decide +kernel
theorem powX_div257 : act 128 (powX (toBits 128 (xperiod / 257))) v0 ≠ v0 := by decide +kernel
theorem powX_div641 : act 128 (powX (toBits 128 (xperiod / 641))) v0 ≠ v0 := by decide +kernel
theorem powX_div65537 : act 128 (powX (toBits 128 (xperiod / 65537))) v0 ≠ v0 := by decide +kernel
theorem powX_div274177 : act 128 (powX (toBits 128 (xperiod / 274177))) v0 ≠ v0 := by decide +kernel
theorem powX_div6700417 : act 128 (powX (toBits 128 (xperiod / 6700417))) v0 ≠ v0 := by decide +kernel
theorem powX_div67280421310721 : act 128 (powX (toBits 128 (xperiod / 67280421310721))) v0 ≠ v0 := by decide +kernel

/-- The jump polynomial is `x ^ (2 ^ 96)`. -/
theorem powX_jump : powX (toBits 128 (2 ^ 96)) = 0xdddf9b1090aa7ac1d2a98b26625eee7b := by decide +kernel

end Gapp.Model
