import Verif.Proofs.CircularBuffer
/-!
# C01, C02: the circular buffer is a bounded double-ended queue
-/

namespace Gapp.Props
open Gapp.Model Gapp.Model.CircularBuffer
variable {α : Type}

/-- **C01.** After any history of public operations, started from an empty buffer of capacity `cap`:
either both the program and the ideal deque reject the history (a precondition was violated), or
neither does and every observation of the program – `operator[]`, iteration, `front`, `back`,
`size`, `capacity` – is the observation of the ideal deque, and `size ≤ capacity`. -/
theorem C01_circular_buffer_is_bounded_deque (cap : Nat) (ops : List (Op α)) :
    (run (init cap) ops = none ∧ Spec.Deque.run ⟨cap, []⟩ ops = none) ∨
    ∃ b d, run (init cap) ops = some b ∧ Spec.Deque.run ⟨cap, []⟩ ops = some d ∧
      b.contents = some d.items ∧
      (∀ i, b.get i = d.items[i]?) ∧
      b.front = d.items.head? ∧ b.back = d.items.getLast? ∧
      b.size = d.items.length ∧ b.capacity = d.cap ∧ b.size ≤ b.capacity := by
  rcases run_refines ops (b := init cap) (d := ⟨cap, []⟩) (repr_init cap) (by simp [init]) with
    h | ⟨b, d, h1, h2, h3, h4⟩
  · exact Or.inl h
  · refine Or.inr ⟨b, d, h1, h2, h3.contents, h3.get, h3.front, h3.back, h3.size_eq, h4, ?_⟩
    have := h3.le_cap
    rw [h3.size_eq]; exact this

/-- Non-vacuity: a history that wraps around, overwrites at both ends and changes the capacity is
accepted, with a non-trivial result. -/
example : (run (init 3 : CircularBuffer Nat)
    [.pushBack 1, .pushBack 2, .pushBack 3, .pushBack 4, .pushFront 5, .popBack, .setCapacity 4,
     .pushBack 7, .pushBack 8]).bind contents = some [5, 2, 7, 8] := by decide

/-- Non-vacuity: a violated precondition is rejected. -/
example : run (init 2 : CircularBuffer Nat) [.pushBack 1, .popBack, .popFront] = none := by decide

/-- **C02.** `set_capacity(n)` in any reachable state succeeds and leaves a buffer of capacity `n`
that holds the first `min n size` elements of the previous content. -/
theorem C02_set_capacity_keeps_oldest (cap : Nat) (ops : List (Op α)) (b : CircularBuffer α)
    (xs : List α) (hb : run (init cap) ops = some b) (hx : b.contents = some xs) (n : Nat) :
    ∃ c, b.setCapacity n = some c ∧ c.capacity = n ∧ c.contents = some (xs.take n) ∧
      c.size = min n b.size := by
  rcases run_refines ops (b := init cap) (d := ⟨cap, []⟩) (repr_init cap) (by simp [init]) with
    ⟨h, -⟩ | ⟨b', d, h1, -, h3, -⟩
  · rw [hb] at h; cases h
  · rw [hb] at h1; cases h1
    have : xs = d.items := by
      have := h3.contents; rw [hx] at this; exact Option.some.inj this
    subst this
    obtain ⟨c, h1, h2, h4⟩ := h3.setCapacity n
    exact ⟨c, h1, h2, h4.contents, by rw [h4.size_eq, h3.size_eq, List.length_take]⟩

/-- Non-vacuity: shrinking a wrapped, full buffer keeps the oldest elements. -/
example : ∃ b, run (init 3 : CircularBuffer Nat)
    [.pushBack 1, .pushBack 2, .pushBack 3, .pushBack 4, .pushBack 5] = some b ∧
    b.contents = some [3, 4, 5] ∧ (b.setCapacity 2).bind contents = some [3, 4] := by
  refine ⟨_, rfl, ?_, ?_⟩ <;> decide

/-- Construction from a range keeps the last `capacity` elements (circular_buffer.hpp:57-67). -/
theorem C01_of_range_keeps_last (cap : Nat) (xs : List α) :
    (ofRange cap xs).contents = some (xs.drop (xs.length - cap)) ∧
      (ofRange cap xs).capacity = cap := by
  have h := repr_fresh cap (xs.drop (xs.length - min cap xs.length)) (by simp; omega)
    (min cap xs.length) (by simp; omega)
  refine ⟨?_, ?_⟩
  · have := h.contents
    have e : xs.length - min cap xs.length = xs.length - cap := by omega
    rw [e] at this
    simpa [ofRange, e] using this
  · simp [ofRange, capacity]; omega

example : (ofRange 2 [1, 2, 3]).contents = some [2, 3] := by decide

end Gapp.Props
