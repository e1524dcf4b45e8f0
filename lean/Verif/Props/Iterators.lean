import Verif.Spec.Iterators
import Verif.Proofs.CircularBuffer
import Verif.Proofs.Matrix
import Mathlib.Tactic.Linarith
/-!
# C62: iterators

The iterators of the containers of the library are positions: reading, moving and comparing them has the effect that it has on positions. Two things are wrong. The difference of two
iterators is never negative, and moving an iterator by more than the size of the container is not noticed by the assertion.
-/

namespace Gapp.Props
open Gapp.Model Gapp.Spec

variable {α : Type}

theorem toSizeT_nonneg (x : ℤ) (h0 : 0 ≤ x) (h1 : x < 2 ^ 64) : toSizeT x = x.toNat := by
  unfold toSizeT
  rw [Int.emod_eq_of_lt h0 h1]

theorem toSizeT_neg (x : ℤ) (h0 : x < 0) (h1 : -2 ^ 64 ≤ x) : toSizeT x = (x + 2 ^ 64).toNat := by
  unfold toSizeT
  rw [← Int.add_emod_right, Int.emod_eq_of_lt (by omega) (by omega)]

/-- C62: reading. An iterator to the position `p` reads the element `p`. Reading at the end is not allowed. -/
theorem C62_read (mem : ℕ → RangeView α) (c : ℕ) (l : List α) (p : ℕ) (it : StableIter) (h : IterAt mem c l p it) : it.deref mem = l[p]? := by
  obtain ⟨⟨hs, hg⟩, -, hp, rfl⟩ := h
  show (if p < (mem c).size then (mem c).get p else none) = l[p]?
  rw [hs]
  by_cases hlt : p < l.length
  · rw [if_pos hlt, hg p hlt]
  · rw [if_neg hlt, List.getElem?_eq_none (by omega)]

/-- C62: the increment moves to the next position, and is not allowed at the end. -/
theorem C62_increment (mem : ℕ → RangeView α) (c : ℕ) (l : List α) (p : ℕ) (it : StableIter) (h : IterAt mem c l p it) :
    (p < l.length → ∃ it', it.incr mem = some it' ∧ it.postIncr mem = some (it, it') ∧ IterAt mem c l (p + 1) it') ∧
    (p = l.length → it.incr mem = none ∧ it.postIncr mem = none) := by
  obtain ⟨⟨hs, hg⟩, hl, hp, rfl⟩ := h
  have e : StableIter.incr mem ⟨some c, p⟩ = if p = l.length then none else some ⟨some c, toSizeT ((p : ℤ) + 1)⟩ := by
    show (if p = (mem c).size then none else some _) = _
    rw [hs]
  constructor
  · intro hlt
    have : toSizeT ((p : ℤ) + 1) = p + 1 := by rw [toSizeT_nonneg _ (by omega) (by omega)]; omega
    rw [if_neg (by omega), this] at e
    exact ⟨_, e, by unfold StableIter.postIncr; rw [e]; rfl, ⟨hs, hg⟩, hl, by omega, rfl⟩
  · intro he
    rw [if_pos he] at e
    exact ⟨e, by unfold StableIter.postIncr; rw [e]; rfl⟩

/-- C62: the decrement moves to the previous position, and is not allowed at the beginning. -/
theorem C62_decrement (mem : ℕ → RangeView α) (c : ℕ) (l : List α) (p : ℕ) (it : StableIter) (h : IterAt mem c l p it) :
    (0 < p → ∃ it', it.decr = some it' ∧ it.postDecr = some (it, it') ∧ IterAt mem c l (p - 1) it') ∧ (p = 0 → it.decr = none ∧ it.postDecr = none) := by
  obtain ⟨hh, hl, hp, rfl⟩ := h
  have e : StableIter.decr ⟨some c, p⟩ = if p = 0 then none else some ⟨some c, p - 1⟩ := rfl
  constructor
  · intro hlt
    rw [if_neg (by omega)] at e
    exact ⟨_, e, by unfold StableIter.postDecr; rw [e]; rfl, hh, hl, by omega, rfl⟩
  · intro he
    rw [if_pos he] at e
    exact ⟨e, by unfold StableIter.postDecr; rw [e]; rfl⟩

/-- C62: the comparisons of two iterators of the same container are the comparisons of their positions. -/
theorem C62_compare (mem : ℕ → RangeView α) (c : ℕ) (l : List α) (p q : ℕ) (a b : StableIter) (ha : IterAt mem c l p a) (hb : IterAt mem c l q b) :
    a.eq mem b = some (decide (p = q)) ∧ a.lt mem b = some (decide (p < q)) ∧ a.gt mem b = some (decide (p > q)) ∧ a.le mem b = some (decide (p ≤ q)) ∧ a.ge mem b = some (decide (p ≥ q)) := by
  obtain ⟨⟨hs, -⟩, -, hp, rfl⟩ := ha
  obtain ⟨-, -, hq, rfl⟩ := hb
  have c1 : StableIter.comparable mem ⟨some c, p⟩ ⟨some c, q⟩ = true := by simp [StableIter.comparable, hs, hp, hq]
  have c2 : StableIter.comparable mem ⟨some c, q⟩ ⟨some c, p⟩ = true := by simp [StableIter.comparable, hs, hp, hq]
  have l1 : StableIter.lt mem ⟨some c, p⟩ ⟨some c, q⟩ = some (decide (p < q)) := by unfold StableIter.lt; rw [if_pos c1]
  have l2 : StableIter.lt mem ⟨some c, q⟩ ⟨some c, p⟩ = some (decide (q < p)) := by unfold StableIter.lt; rw [if_pos c2]
  refine ⟨?_, l1, l2, ?_, ?_⟩
  · unfold StableIter.eq
    rw [if_pos c1]
    rfl
  · unfold StableIter.le
    rw [l2, Option.map_some]
    congr 1
    by_cases h : p ≤ q <;> simp [h] <;> omega
  · unfold StableIter.ge
    rw [l1, Option.map_some]
    congr 1
    by_cases h : q ≤ p <;> simp [h] <;> omega

/-- C62: iterators of different containers are not compared, and there is no difference of them. -/
theorem C62_compare_different (mem : ℕ → RangeView α) (a b : StableIter) (hab : a.data ≠ b.data) : a.eq mem b = none ∧ a.lt mem b = none ∧ a.diff mem b = none := by
  have c1 : StableIter.comparable mem a b = false := by simp [StableIter.comparable, hab]
  refine ⟨by simp [StableIter.eq, c1], by simp [StableIter.lt, c1], ?_⟩
  obtain ⟨da, ia⟩ := a
  obtain ⟨db, ib⟩ := b
  cases da with
  | none => rfl
  | some x =>
    cases db with
    | none => rfl
    | some y =>
      have : x ≠ y := fun h => hab (by rw [h])
      show (if x ≠ y then none else _) = none
      rw [if_pos this]

/-- The iterator at another position of the same container. -/
theorem iterAt_move {mem : ℕ → RangeView α} {c : ℕ} {l : List α} {p : ℕ} {it : StableIter} (h : IterAt mem c l p it) (q : ℕ) (hq : q ≤ l.length) : IterAt mem c l q ⟨some c, q⟩ :=
  ⟨h.1, h.2.1, hq, rfl⟩

/-- C62, the full statement is that `it + n` is allowed exactly if the position `p + n` exists. This holds for all `n` up to the size of the container. For larger ones see
`C62_move_past_end`. -/
theorem C62_move_partial (mem : ℕ → RangeView α) (c : ℕ) (l : List α) (p : ℕ) (it : StableIter) (h : IterAt mem c l p it) (n : ℤ) (hn : IsPtrdiff n) (hle : n ≤ l.length) :
    (∀ q : ℕ, (q : ℤ) = p + n → q ≤ l.length → ∃ it', it.advance mem n = some it' ∧ it.plus mem n = some it' ∧ IterAt mem c l q it' ∧ it.index mem n = l[q]?) ∧
    ((¬ ∃ q : ℕ, (q : ℤ) = p + n ∧ q ≤ l.length) → it.advance mem n = none ∧ it.plus mem n = none ∧ it.index mem n = none) := by
  have hI := h
  obtain ⟨⟨hs, hg⟩, hl, hp, rfl⟩ := h
  obtain ⟨hn1, hn2⟩ := hn
  have key : StableIter.advance mem ⟨some c, p⟩ n = if 0 ≤ p + n ∧ p + n ≤ l.length then some ⟨some c, toSizeT (p + n)⟩ else none := by
    show (if n < 0 then ((negPtrdiff n).bind fun m => if p < toSizeT m then none else some (⟨some c, toSizeT (p + n)⟩ : StableIter)) else if 0 < n then
      (if toSizeT ((mem c).size - n) < p then none else some ⟨some c, toSizeT (p + n)⟩) else some ⟨some c, toSizeT (p + n)⟩) = _
    rw [hs]
    by_cases h1 : n < 0
    · rw [if_pos h1]
      unfold negPtrdiff
      by_cases h2 : n = -2 ^ 63
      · rw [if_pos h2, if_neg (by omega)]; rfl
      · rw [if_neg h2]
        show (if p < toSizeT (-n) then none else _) = _
        rw [toSizeT_nonneg (-n) (by omega) (by omega)]
        by_cases h3 : p < (-n).toNat
        · rw [if_pos h3, if_neg (by omega)]
        · rw [if_neg h3, if_pos (by omega)]
    · rw [if_neg h1]
      by_cases h2 : 0 < n
      · rw [if_pos h2, toSizeT_nonneg _ (by omega) (by omega)]
        by_cases h3 : ((l.length : ℤ) - n).toNat < p
        · rw [if_pos h3, if_neg (by omega)]
        · rw [if_neg h3, if_pos (by omega)]
      · rw [if_neg h2, if_pos (by omega)]
  constructor
  · intro q hq hql
    have hq' : toSizeT ((p : ℤ) + n) = q := by rw [← hq, toSizeT_nonneg _ (by omega) (by omega)]; omega
    rw [if_pos (by omega), hq'] at key
    have hat := iterAt_move hI q hql
    refine ⟨_, key, key, hat, ?_⟩
    show ((StableIter.advance mem ⟨some c, p⟩ n).bind fun i => i.deref mem) = _
    rw [key]
    exact C62_read mem c l q _ hat
  · intro hno
    rw [if_neg (fun hc => hno ⟨((p : ℤ) + n).toNat, by omega, by omega⟩)] at key
    refine ⟨key, key, ?_⟩
    show ((StableIter.advance mem ⟨some c, p⟩ n).bind fun i => i.deref mem) = _
    rw [key]; rfl

/-- C62: an iterator can be moved by more than the size of the container, from any position, although there is no such position. The size minus the distance wraps around in the assertion. -/
theorem C62_move_past_end (mem : ℕ → RangeView α) (c : ℕ) (l : List α) (p : ℕ) (it : StableIter) (h : IterAt mem c l p it) (n : ℤ) (hn : IsPtrdiff n) (hgt : (l.length : ℤ) < n) :
    it.advance mem n = some ⟨some c, p + n.toNat⟩ ∧ l.length < p + n.toNat := by
  obtain ⟨⟨hs, hg⟩, hl, hp, rfl⟩ := h
  obtain ⟨hn1, hn2⟩ := hn
  refine ⟨?_, by omega⟩
  show (if n < 0 then _ else if 0 < n then (if toSizeT ((mem c).size - n) < p then none else some (⟨some c, toSizeT (p + n)⟩ : StableIter)) else _) = _
  rw [if_neg (by omega), if_pos (by omega), hs, toSizeT_neg _ (by omega) (by omega), if_neg (by omega), toSizeT_nonneg _ (by omega) (by omega)]
  congr 2
  omega

/-- The iterators move back, `it - n`, as they move forward by `-n`. -/
theorem C62_move_back (mem : ℕ → RangeView α) (it : StableIter) (n : ℤ) (hn : IsPtrdiff n) : it.minus mem n = if n = -2 ^ 63 then none else it.plus mem (-n) := by
  unfold StableIter.minus negPtrdiff
  by_cases h : n = -2 ^ 63
  · rw [if_pos h, if_pos h]; rfl
  · rw [if_neg h, if_neg h]; rfl

/-- C62, the full statement is that `b - a` is the number of steps from `a` to `b`, negative if `b` is in front of `a`, so that `a + (b - a) = b`. This holds if `a` is not after `b`. Otherwise see
`C62_negative_difference`. -/
theorem C62_difference_partial (mem : ℕ → RangeView α) (c : ℕ) (l : List α) (p q : ℕ) (a b : StableIter) (ha : IterAt mem c l p a) (hb : IterAt mem c l q b) (hpq : p ≤ q) :
    b.diff mem a = some ((q : ℤ) - p) ∧ a.plus mem ((q : ℤ) - p) = some b ∧ b.minus mem ((q : ℤ) - p) = some a := by
  have hl := ha.2.1
  have hq := hb.2.2.1
  refine ⟨?_, ?_, ?_⟩
  · obtain ⟨⟨hs, hg⟩, hl, hp, rfl⟩ := ha
    obtain ⟨-, -, hq, rfl⟩ := hb
    show (if c ≠ c then none else if (mem c).size < q then none else if (mem c).size < p then none else
      if 2 ^ 63 - 1 < (if p ≤ q then q - p else p - q) then none else some (((if p ≤ q then q - p else p - q : ℕ)) : ℤ)) = _
    rw [if_neg (by simp), hs, if_neg (by omega), if_neg (by omega), if_pos hpq, if_neg (by omega)]
    congr 1
    omega
  · obtain ⟨it', h1, h2, h3, -⟩ := (C62_move_partial mem c l p a ha ((q : ℤ) - p) ⟨by omega, by omega⟩ (by omega)).1 q (by omega) hq
    rw [h2, h3.2.2.2, hb.2.2.2]
  · rw [C62_move_back mem b _ ⟨by omega, by omega⟩, if_neg (by omega)]
    obtain ⟨it', h1, h2, h3, -⟩ := (C62_move_partial mem c l q b hb (-((q : ℤ) - p)) ⟨by omega, by omega⟩ (by omega)).1 p (by omega) (by omega)
    rw [h2, h3.2.2.2, ha.2.2.2]

/-- C62: the difference of iterators is wrong if the first one is in front of the second one. It is the positive number of steps instead of the negative one, and adding it to `b` does not
lead to `a`. -/
theorem C62_negative_difference (mem : ℕ → RangeView α) (c : ℕ) (l : List α) (p q : ℕ) (a b : StableIter) (ha : IterAt mem c l p a) (hb : IterAt mem c l q b) (hpq : p < q) :
    a.diff mem b = some ((q : ℤ) - p) ∧ (q : ℤ) - p ≠ (p : ℤ) - q ∧ b.plus mem ((q : ℤ) - p) ≠ some a := by
  have hl := ha.2.1
  have hq := hb.2.2.1
  refine ⟨?_, by omega, ?_⟩
  · obtain ⟨⟨hs, hg⟩, hl, hp, rfl⟩ := ha
    obtain ⟨-, -, hq, rfl⟩ := hb
    show (if c ≠ c then none else if (mem c).size < p then none else if (mem c).size < q then none else
      if 2 ^ 63 - 1 < (if q ≤ p then p - q else q - p) then none else some (((if q ≤ p then p - q else q - p : ℕ)) : ℤ)) = _
    rw [if_neg (by simp), hs, if_neg (by omega), if_neg (by omega), if_neg (show ¬ q ≤ p by omega), if_neg (by omega)]
    congr 1
    omega
  · intro hc
    have hk := C62_move_partial mem c l q b hb ((q : ℤ) - p) ⟨by omega, by omega⟩ (by omega)
    by_cases he : q + (q - p) ≤ l.length
    · obtain ⟨it', -, h2, h3, -⟩ := hk.1 (q + (q - p)) (by omega) he
      rw [hc] at h2
      have h4 := h3.2.2.2
      rw [← Option.some.inj h2, ha.2.2.2] at h4
      injection h4 with _ h5
      omega
    · have := (hk.2 (by rintro ⟨r, h1, h2⟩; omega)).2.1
      rw [hc] at this
      cases this

/-- A case: the first and the last position of a vector with three elements. `begin - end` is `3`. -/
example : IterAt (fun _ => listView [7, 8, 9]) 0 [7, 8, 9] 0 ⟨some 0, 0⟩ ∧ IterAt (fun _ => listView [7, 8, 9]) 0 [7, 8, 9] 3 ⟨some 0, 3⟩ ∧
    StableIter.diff (fun _ => listView [7, 8, 9]) ⟨some 0, 0⟩ ⟨some 0, 3⟩ = some 3 ∧ StableIter.diff (fun _ => listView [7, 8, 9]) ⟨some 0, 3⟩ ⟨some 0, 0⟩ = some 3 ∧
    StableIter.advance (fun _ => listView [7, 8, 9]) ⟨some 0, 1⟩ 4 = some ⟨some 0, 5⟩ ∧ StableIter.advance (fun _ => listView [7, 8, 9]) ⟨some 0, 1⟩ 3 = none ∧
    StableIter.index (fun _ => listView [7, 8, 9]) ⟨some 0, 1⟩ (-1) = some 7 := by
  refine ⟨⟨⟨rfl, fun i _ => rfl⟩, by decide, by decide, rfl⟩, ⟨⟨rfl, fun i _ => rfl⟩, by decide, by decide, rfl⟩, by decide +kernel, by decide +kernel, by decide +kernel, by decide +kernel,
    by decide +kernel⟩

/-- C62: a loop from one position to another visits the elements between them, in order, and ends. -/
theorem C62_loop (mem : ℕ → RangeView α) (c : ℕ) (l : List α) (p q : ℕ) (a b : StableIter) (ha : IterAt mem c l p a) (hb : IterAt mem c l q b) (hpq : p ≤ q) (fuel : ℕ) (hf : q - p < fuel) :
    StableIter.traverse mem b fuel a = some ((l.take q).drop p) := by
  induction fuel generalizing p a with
  | zero => omega
  | succ fuel ih =>
    have hq := hb.2.2.1
    show ((a.eq mem b).bind fun e => if e = true then some [] else (a.deref mem).bind fun x => (a.incr mem).bind fun it' => (StableIter.traverse mem b fuel it').bind fun xs => some (x :: xs)) = _
    rw [(C62_compare mem c l p q a b ha hb).1]
    by_cases he : p = q
    · subst he
      simp
    · have hlt : p < l.length := by omega
      obtain ⟨it', h1, -, h3⟩ := (C62_increment mem c l p a ha).1 hlt
      have h4 := ih (p + 1) it' h3 (by omega) (by omega)
      rw [Option.bind_some, if_neg (by simpa using he), C62_read mem c l p a ha, List.getElem?_eq_getElem hlt, Option.bind_some, h1, Option.bind_some, h4, Option.bind_some]
      congr 1
      rw [List.drop_eq_getElem_cons (i := p) (by rw [List.length_take]; omega), List.getElem_take]

/-- C62: a loop over the reverse iterators visits the elements between the positions in the opposite order. -/
theorem C62_loop_back (mem : ℕ → RangeView α) (c : ℕ) (l : List α) (p q : ℕ) (a b : StableIter) (ha : IterAt mem c l p a) (hb : IterAt mem c l q b) (hpq : p ≤ q) (fuel : ℕ) (hf : q - p < fuel) :
    StableIter.traverseBack mem a fuel b = some ((l.take q).drop p).reverse := by
  induction fuel generalizing q b with
  | zero => omega
  | succ fuel ih =>
    have hq := hb.2.2.1
    show ((b.eq mem a).bind fun e => if e = true then some [] else b.decr.bind fun it' => (it'.deref mem).bind fun x => (StableIter.traverseBack mem a fuel it').bind fun xs => some (x :: xs)) = _
    rw [(C62_compare mem c l q p b a hb ha).1]
    by_cases he : q = p
    · subst he
      simp
    · obtain ⟨it', h1, -, h3⟩ := (C62_decrement mem c l q b hb).1 (by omega)
      have h4 := ih (q - 1) it' h3 (by omega) (by omega)
      have hlt : q - 1 < l.length := by omega
      rw [Option.bind_some, if_neg (by simpa using he), h1, Option.bind_some, C62_read mem c l (q - 1) it' h3, List.getElem?_eq_getElem hlt, Option.bind_some, h4, Option.bind_some]
      congr 1
      have e1 : l.take q = l.take (q - 1) ++ [l[q - 1]] := by
        have := List.take_succ_eq_append_getElem hlt
        rwa [show q - 1 + 1 = q by omega] at this
      rw [e1, List.drop_append_of_le_length (by rw [List.length_take]; omega), List.reverse_append]
      rfl

/-- C62: the iterators stay valid when the container changes, also if its storage is reallocated. The iterator still is the same position, as long as the container has that many elements. It refers to the
same element if the elements up to there are the same. -/
theorem C62_stable (mem mem' : ℕ → RangeView α) (c : ℕ) (l l' : List α) (p : ℕ) (it : StableIter) (h : IterAt mem c l p it) (hh : Holds mem' c l') (hl : l'.length < 2 ^ 63) (hp : p ≤ l'.length) :
    IterAt mem' c l' p it ∧ (l <+: l' → p < l.length → it.deref mem' = it.deref mem) := by
  have h' : IterAt mem' c l' p it := ⟨hh, hl, hp, h.2.2.2⟩
  refine ⟨h', ?_⟩
  rintro ⟨t, rfl⟩ hlt
  rw [C62_read mem' c _ p it h', C62_read mem c l p it h, List.getElem?_append_left hlt]

/-- C62: the loops over a circular buffer visit its elements from the oldest to the newest one and back, in every state that the buffer can be in. -/
theorem C62_circular_buffer (cap : ℕ) (ops : List (CircularBuffer.Op α)) (b : CircularBuffer α) (xs : List α) (hb : CircularBuffer.run (CircularBuffer.init cap) ops = some b)
    (hx : b.contents = some xs) (hsz : b.size < 2 ^ 63) :
    ∃ first last : StableIter, StableIter.make (fun _ => bufferView b) 0 0 = some first ∧ StableIter.make (fun _ => bufferView b) 0 b.size = some last ∧
      StableIter.traverse (fun _ => bufferView b) last (b.size + 1) first = some xs ∧ StableIter.traverseBack (fun _ => bufferView b) first (b.size + 1) last = some xs.reverse := by
  rcases CircularBuffer.run_refines ops (b := CircularBuffer.init cap) (d := ⟨cap, []⟩) (CircularBuffer.repr_init cap) (by simp [CircularBuffer.init]) with ⟨h, -⟩ | ⟨b', d, h1, -, h3, -⟩
  · rw [hb] at h; cases h
  · rw [hb] at h1; cases h1
    have : xs = d.items := by
      have := h3.contents; rw [hx] at this; exact Option.some.inj this
    subst this
    have hs := h3.size_eq
    have hold : Holds (fun _ => bufferView b) 0 d.items := ⟨hs, fun i _ => h3.get i⟩
    have a1 : IterAt (fun _ => bufferView b) 0 d.items 0 ⟨some 0, 0⟩ := ⟨hold, by omega, by omega, rfl⟩
    have a2 : IterAt (fun _ => bufferView b) 0 d.items b.size ⟨some 0, b.size⟩ := ⟨hold, by omega, by omega, rfl⟩
    refine ⟨⟨some 0, 0⟩, ⟨some 0, b.size⟩, if_pos (Nat.zero_le _), if_pos (Nat.le_refl _), ?_, ?_⟩
    · rw [C62_loop _ _ _ 0 b.size _ _ a1 a2 (by omega) _ (by omega)]
      simp [hs]
    · rw [C62_loop_back _ _ _ 0 b.size _ _ a1 a2 (by omega) _ (by omega)]
      simp [hs]

/-- C62: the loops over a matrix visit its rows in order and back, for every matrix that the operations can build. -/
theorem C62_matrix_rows (dflt : α) (ops : List (MatOp α)) (hpre : TableRunPre [] ops) (hsz : (tableRun [] ops).length < 2 ^ 63) :
    ∃ m, matRun dflt ⟨[], 0⟩ ops = some m ∧ ∃ first last : StableIter, StableIter.make (fun _ => matrixView m) 0 0 = some first ∧ StableIter.make (fun _ => matrixView m) 0 (matRows m) = some last ∧
      StableIter.traverse (fun _ => matrixView m) last (matRows m + 1) first = some (tableRun [] ops) ∧
      StableIter.traverseBack (fun _ => matrixView m) first (matRows m + 1) last = some (tableRun [] ops).reverse := by
  obtain ⟨m, e, h⟩ := matRun_rep dflt ops rep_empty_mat hpre
  have hr := rep_rows h
  have hold : Holds (fun _ => matrixView m) 0 (tableRun [] ops) := ⟨hr, fun i hi => by
    rw [List.getElem?_eq_getElem hi]
    exact matRow_rep h (List.getElem?_eq_getElem hi)⟩
  have a1 : IterAt (fun _ => matrixView m) 0 (tableRun [] ops) 0 ⟨some 0, 0⟩ := ⟨hold, hsz, by omega, rfl⟩
  have a2 : IterAt (fun _ => matrixView m) 0 (tableRun [] ops) (matRows m) ⟨some 0, matRows m⟩ := ⟨hold, hsz, by omega, rfl⟩
  refine ⟨m, e, ⟨some 0, 0⟩, ⟨some 0, matRows m⟩, if_pos (Nat.zero_le _), if_pos (Nat.le_refl _), ?_, ?_⟩
  · rw [C62_loop _ _ _ 0 (matRows m) _ _ a1 a2 (by omega) _ (by omega)]
    simp [hr]
  · rw [C62_loop_back _ _ _ 0 (matRows m) _ _ a1 a2 (by omega) _ (by omega)]
    simp [hr]

/-- Cases: a circular buffer that has wrapped around, and a matrix with two rows. -/
example : (∃ b, CircularBuffer.run (CircularBuffer.init 3 : CircularBuffer Nat) [.pushBack 1, .pushBack 2, .pushBack 3, .pushBack 4] = some b ∧
    StableIter.traverse (fun _ => bufferView b) ⟨some 0, 3⟩ 4 ⟨some 0, 0⟩ = some [2, 3, 4]) ∧
    StableIter.traverseBack (fun _ => matrixView ⟨[1, 2, 3, 4], 2⟩) ⟨some 0, 0⟩ 3 ⟨some 0, 2⟩ = some [[3, 4], [1, 2]] := by
  refine ⟨⟨_, rfl, ?_⟩, ?_⟩ <;> decide +kernel

/-! ## `iota_iterator` -/

/-- C62: the loop over the numbers from `a` to `b` visits all of them, in order. -/
theorem C62_iota_loop (a b : ℕ) (hab : a ≤ b) (hb : b < 2 ^ 64) (fuel : ℕ) (hf : b - a < fuel) : Iota.traverse b fuel a = some ((List.range (b - a)).map (a + ·)) := by
  induction fuel generalizing a with
  | zero => omega
  | succ fuel ih =>
    unfold Iota.traverse
    by_cases he : a = b
    · subst he; simp
    · rw [if_neg he]
      have h1 : Iota.incr a = some (a + 1) := by
        unfold Iota.incr
        rw [if_neg (by omega), toSizeT_nonneg _ (by omega) (by omega)]
        congr 1
      show ((Iota.incr a).bind fun v' => (Iota.traverse b fuel v').bind fun vs => some (a :: vs)) = _
      rw [h1, Option.bind_some, ih (a + 1) (by omega) (by omega), Option.bind_some, show b - a = (b - (a + 1)) + 1 by omega, List.range_succ_eq_map, List.map_cons, List.map_map]
      congr 2
      apply List.map_congr_left
      intro i _
      show a + 1 + i = a + (i + 1)
      omega

/-- C62: numbers are moved by the given distance, if the result is a `size_t`, and not otherwise. -/
theorem C62_iota_move (v : ℕ) (hv : v < 2 ^ 64) (n : ℤ) (hn : IsPtrdiff n) (hmin : n ≠ -2 ^ 63) :
    Iota.advance v n = (if 0 ≤ v + n ∧ v + n < 2 ^ 64 then some (v + n).toNat else none) := by
  obtain ⟨hn1, hn2⟩ := hn
  unfold Iota.advance
  by_cases h1 : 0 < n
  · rw [if_pos h1, toSizeT_nonneg _ (by omega) (by omega)]
    by_cases h2 : ((2 : ℤ) ^ 64 - 1 - n).toNat < v
    · rw [if_pos h2, if_neg (by omega)]
    · rw [if_neg h2, if_pos (by omega), toSizeT_nonneg _ (by omega) (by omega)]
  · rw [if_neg h1]
    by_cases h2 : n < 0
    · rw [if_pos h2]
      unfold negPtrdiff
      rw [if_neg hmin]
      show (if v < toSizeT (-n) then none else some (toSizeT (v + n))) = _
      rw [toSizeT_nonneg (-n) (by omega) (by omega)]
      by_cases h3 : v < (-n).toNat
      · rw [if_pos h3, if_neg (by omega)]
      · rw [if_neg h3, if_pos (by omega), toSizeT_nonneg _ (by omega) (by omega)]
    · rw [if_neg h2, if_pos (by omega), toSizeT_nonneg _ (by omega) (by omega)]

/-- C62: the difference of two numbers has the right sign. It is right whenever it is a `ptrdiff_t`, and differs from the right number otherwise. -/
theorem C62_iota_difference (a b : ℕ) (ha : a < 2 ^ 64) (hb : b < 2 ^ 64) : Iota.diff a b = some ((a : ℤ) - b) ↔ -2 ^ 63 < (a : ℤ) - b ∧ (a : ℤ) - b < 2 ^ 63 := by
  unfold Iota.diff toPtrdiff negPtrdiff
  by_cases h : b ≤ a
  · rw [if_pos h]
    constructor
    · intro hd
      have := Option.some.inj hd
      omega
    · rintro ⟨h1, h2⟩
      congr 1
      omega
  · rw [if_neg h]
    constructor
    · intro hd
      by_cases hm : ((b : ℤ) - a + 2 ^ 63) % 2 ^ 64 - 2 ^ 63 = -2 ^ 63
      · rw [if_pos hm] at hd; cases hd
      · rw [if_neg hm] at hd
        have := Option.some.inj hd
        omega
    · rintro ⟨h1, h2⟩
      rw [if_neg (by omega)]
      congr 1
      omega

example : Iota.traverse 5 4 2 = some [2, 3, 4] ∧ Iota.diff 2 5 = some (-3) ∧ Iota.diff 5 2 = some 3 ∧ Iota.advance 3 (-4) = none ∧ Iota.diff (2 ^ 63) 0 = some (-2 ^ 63) := by decide +kernel

/-! ## `container_interface` -/

/-- C62: a part of a vector, e.g. a row of a matrix, has the elements of the part. `at` throws an exception for the other indices. -/
theorem C62_segment (s : Segment α) (h1 : s.first ≤ s.last) (h2 : s.last ≤ s.data.length) (h3 : s.data.length < 2 ^ 63) :
    s.size = ((s.data.take s.last).drop s.first).length ∧ (s.empty = true ↔ (s.data.take s.last).drop s.first = []) ∧
    (∀ x, ((s.data.take s.last).drop s.first).head? = some x → s.front = .value x) ∧ (∀ x, ((s.data.take s.last).drop s.first).getLast? = some x → s.back = .value x) ∧
    (∀ i x, ((s.data.take s.last).drop s.first)[i]? = some x → s.get i = .value x ∧ s.atIdx i = .value x) ∧ (∀ i, ((s.data.take s.last).drop s.first)[i]? = none → s.get i = .aborts ∧ s.atIdx i = .throws) := by
  have hsz : s.size = s.last - s.first := by
    unfold Segment.size
    rw [toSizeT_nonneg _ (by omega) (by omega)]
    omega
  have hlen : ((s.data.take s.last).drop s.first).length = s.last - s.first := by simp; omega
  have hget : ∀ i, i < s.last - s.first → ((s.data.take s.last).drop s.first)[i]? = s.data[s.first + i]? := by
    intro i hi
    rw [List.getElem?_drop, List.getElem?_take, if_pos (by omega)]
  have hread : ∀ i x, i < s.last - s.first → ((s.data.take s.last).drop s.first)[i]? = some x → s.read (s.first + i) = .value x := by
    intro i x hi hx
    rw [hget i hi] at hx
    unfold Segment.read
    rw [hx]
  refine ⟨by rw [hsz, hlen], ?_, ?_, ?_, ?_, ?_⟩
  · rw [← List.length_eq_zero_iff, hlen]
    simp only [Segment.empty, beq_iff_eq]
    omega
  · intro x hx
    rw [List.head?_eq_getElem?] at hx
    have hi : 0 < s.last - s.first := by
      obtain ⟨h, -⟩ := List.getElem?_eq_some_iff.mp hx
      omega
    simpa [Segment.front] using hread 0 x hi hx
  · intro x hx
    rw [List.getLast?_eq_getElem?, hlen] at hx
    have hi : 0 < s.last - s.first := by
      obtain ⟨h, -⟩ := List.getElem?_eq_some_iff.mp hx
      omega
    have := hread (s.last - s.first - 1) x (by omega) hx
    unfold Segment.back
    rw [if_neg (by omega)]
    rwa [show s.first + (s.last - s.first - 1) = s.last - 1 by omega] at this
  · intro i x hx
    have hi : i < s.last - s.first := by
      obtain ⟨h, -⟩ := List.getElem?_eq_some_iff.mp hx
      omega
    unfold Segment.get Segment.atIdx
    rw [if_pos (by omega), if_neg (by omega)]
    exact ⟨hread i x hi hx, hread i x hi hx⟩
  · intro i hx
    have hi : ¬ i < s.last - s.first := by
      rw [List.getElem?_eq_none_iff] at hx
      omega
    unfold Segment.get Segment.atIdx
    rw [if_neg (by omega), if_pos (by omega)]
    exact ⟨rfl, rfl⟩

example : (Segment.mk [1, 2, 3, 4, 5, 6] 2 4).size = 2 ∧ (Segment.mk [1, 2, 3, 4, 5, 6] 2 4).get 1 = .value 4 ∧ (Segment.mk [1, 2, 3, 4, 5, 6] 2 4).atIdx 2 = .throws ∧
    (Segment.mk [1, 2, 3, 4, 5, 6] 2 4).front = .value 3 ∧ (Segment.mk [1, 2, 3, 4, 5, 6] 2 4).back = .value 4 := by decide +kernel

end Gapp.Props
