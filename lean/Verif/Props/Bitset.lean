import Verif.Proofs.Bitset
/-!
# C04, C05: the dynamic bitset is a resizable sequence of bits
-/

namespace Gapp.Props
open Gapp.Model Gapp.Model.Bitset

/-- **C04 (modifiers).** A history of modifiers whose resizes are safe (`Spec.Bits.SafeHistory`, see C05),
started from a bitset of `n` bits equal to `v`, is rejected exactly when some index is out of range;
otherwise reading all the bits with `operator[]` gives the sequence that the same operations give on
a plain list of Booleans, and reads outside of the bitset are rejected. -/
theorem C04_bitset_is_bit_sequence_partial (n : Nat) (v : Bool) (ops : List Op)
    (hs : Spec.Bits.SafeHistory (List.replicate n v) ops) :
    (run (init n v) ops = none ∧ Spec.Bits.run (List.replicate n v) ops = none) ∨
    ∃ b xs, run (init n v) ops = some b ∧ Spec.Bits.run (List.replicate n v) ops = some xs ∧
      b.contents = some xs ∧ b.size = xs.length ∧ ∀ i, b.get i = xs[i]? := by
  rw [← bits_init] at hs ⊢
  rcases run_refines ops (wf_init n v) hs with h | ⟨c, h1, h2, h3⟩
  · exact Or.inl h
  · exact Or.inr ⟨c, c.bits, h1, h3, contents_eq h2, by simp, get_eq h2⟩

/-- Non-vacuity: a history with every operation, over more than one block. -/
example : ((run (init 70 false) [.assign 65 true, .flip 3, .flip 65, .complement, .flip 69, .resize 6 true,
      .assign 0 false, .resize 9 true]).bind contents) =
    some [false, true, true, false, true, true, true, true, true] := by decide

example : Spec.Bits.SafeHistory (List.replicate 70 false) [.flip 3, .resize 6 true, .resize 9 true] := by
  refine ⟨trivial, fun ys h => ⟨?_, fun zs h' => ⟨?_, fun _ _ => trivial⟩⟩⟩
  · have : ys.length = 70 := by
      have := congrArg (Option.map List.length) h
      simpa [Spec.Bits.step] using this.symm
    left; omega
  · have : ys.length = 70 := by
      have := congrArg (Option.map List.length) h
      simpa [Spec.Bits.step] using this.symm
    have : zs.length = 6 := by
      simp [Spec.Bits.step] at h'
      rw [← h']; simp; omega
    right; right; omega

/-- **C04 (queries).** After *any* accepted history – including one with unsafe resizes – every query of
a non-empty bitset agrees with the sequence of bits that `operator[]` reads. -/
theorem C04_bitset_queries (n : Nat) (v : Bool) (ops : List Op) (b : Bitset) (xs : List Bool)
    (hb : run (init n v) ops = some b) (hx : b.contents = some xs) :
    b.findFirst true = xs.findIdx (· == true) ∧ b.findFirst false = xs.findIdx (· == false) ∧
    b.complement.contents = some (xs.map (!·)) ∧
    (0 < b.size →
      b.popcount = some (xs.count true) ∧ b.anySet = some (decide (true ∈ xs)) ∧
      b.allSet = some (decide (false ∉ xs)) ∧ b.noneSet = some (decide (true ∉ xs))) := by
  have h := run_wf ops (wf_init n v) hb
  rw [contents_eq h] at hx
  cases hx
  refine ⟨findFirst_eq h true, findFirst_eq h false, ?_, fun hs => ⟨popcount_eq h hs, ?_, ?_, ?_⟩⟩
  · rw [contents_eq (complement_eq h).1, (complement_eq h).2]
  · rw [anySet_eq h hs, any_id_eq]
  · rw [allSet_eq h hs, all_id_eq]
  · rw [noneSet, anySet_eq h hs, any_id_eq]; simp

example : ∃ b xs, run (init 70 false) [.assign 65 true, .flip 3] = some b ∧ b.contents = some xs ∧
    0 < b.size ∧ b.popcount = some 2 ∧ b.findFirst true = 3 := by
  refine ⟨_, _, rfl, rfl, ?_, ?_, ?_⟩ <;> decide

/-- **C04 (equality).** Two non-empty bitsets, each after any history of its own, compare equal exactly if
they hold the same sequence of bits (stale bits past the end never matter). -/
theorem C04_bitset_equality (n m : Nat) (v w : Bool) (ops ops' : List Op) (a b : Bitset) (xs ys : List Bool)
    (ha : run (init n v) ops = some a) (hb : run (init m w) ops' = some b)
    (hx : a.contents = some xs) (hy : b.contents = some ys) (hs : 0 < a.size) :
    a.eq b = some (decide (xs = ys)) := by
  have h := run_wf ops (wf_init n v) ha
  have h' := run_wf ops' (wf_init m w) hb
  rw [contents_eq h] at hx
  rw [contents_eq h'] at hy
  cases hx; cases hy
  exact eq_eq h h' hs

/-- Non-vacuity: equal contents with different stale bits. -/
example : ∃ a b, run (init 3 true) [.assign 0 false, .flip 1, .flip 2] = some a ∧ run (init 3 false) [] = some b ∧
    a.blocks ≠ b.blocks ∧ a.eq b = some true := by
  refine ⟨_, _, rfl, rfl, ?_, ?_⟩ <;> decide

/-- **C04, missing part.** On the empty bitset the counting queries read `blocks_.back()` of an empty
container: they have no defined result. -/
theorem C04_empty_bitset_queries_undefined :
    (init 0 false).popcount = none ∧ (init 0 false).anySet = none ∧ (init 0 false).allSet = none ∧
    (init 0 false).eq (init 0 false) = none := by decide

/-- **C05 (violated).** There are a bitset and a growing `resize(n, true)` after which an added position
does not read `true`. -/
theorem C05_resize_violated :
    ∃ b c, run (init 10 false) [] = some b ∧ b.resize 100 true = some c ∧ c.get 20 = some false := by
  refine ⟨_, _, rfl, rfl, ?_⟩; decide

/-- **C05 (partial).** After any history a `resize(n, v)` succeeds, keeps the first `min n size` bits, and all
the added bits equal `v` provided the resize is safe: it starts at a multiple of 64 bits or stays within
the last block. Missing: growing from a partially filled block into new blocks. -/
theorem C05_resize_partial (n₀ : Nat) (v₀ : Bool) (ops : List Op) (b : Bitset) (xs : List Bool)
    (hb : run (init n₀ v₀) ops = some b) (hx : b.contents = some xs) (n : Nat) (v : Bool)
    (hs : Spec.Bits.SafeResize xs.length n) :
    ∃ c, b.resize n v = some c ∧
      c.contents = some (xs.take n ++ List.replicate (n - xs.length) v) := by
  have h := run_wf ops (wf_init n₀ v₀) hb
  rw [contents_eq h] at hx
  cases hx
  rw [length_bits] at hs ⊢
  obtain ⟨c, h1, h2, h3⟩ := resize_safe h n v hs
  exact ⟨c, h1, by rw [contents_eq h2, h3]⟩

/-- **C05 (what every resize does).** The old bits are kept, and the added bits from the next multiple of 64
on equal `v`; only added bits that share the old last block can be wrong. -/
theorem C05_resize_general (n₀ : Nat) (v₀ : Bool) (ops : List Op) (b : Bitset)
    (hb : run (init n₀ v₀) ops = some b) (n : Nat) (v : Bool) :
    ∃ c, b.resize n v = some c ∧ c.size = n ∧
      (∀ i, i < b.size → i < n → c.get i = b.get i) ∧
      (∀ i, (b.size + 63) / 64 * 64 ≤ i → i < n → c.get i = some v) := by
  have h := run_wf ops (wf_init n₀ v₀) hb
  obtain ⟨c, h1, h2, h3, h4⟩ := resize_eq h n v
  have hlen : b.blocks.length = (b.size + 63) / 64 := by rw [h, blockCount_eq]
  refine ⟨c, h1, h3, ?_, ?_⟩
  · intro i hi hn
    rw [get_eq h2, get_eq h, List.getElem?_eq_getElem (by simp [h3, hn]),
      List.getElem?_eq_getElem (by simpa using hi), bits_get, bits_get, h4 i hn, if_pos hi]
  · intro i hi hn
    rw [get_eq h2, List.getElem?_eq_getElem (by simp [h3, hn]), bits_get, h4 i hn,
      if_neg (by omega), if_neg (by omega)]

example : ∃ b, run (init 64 false) [] = some b ∧ ((b.resize 66 true).bind contents).map (·.drop 62) =
    some [false, false, true, true] := by
  refine ⟨_, rfl, ?_⟩; decide

end Gapp.Props
