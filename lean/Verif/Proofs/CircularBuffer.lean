import Verif.Spec.CircularBuffer
import Verif.Proofs.ListAux
/-! Refinement proof of the circular buffer. -/

namespace Gapp.Model.CircularBuffer
variable {α : Type}

/-- The buffer `b` represents the list `xs`: logical position `i` is live and holds `xs[i]` for
`i < xs.length`, and every other slot is dead. -/
structure Repr (b : CircularBuffer α) (xs : List α) : Prop where
  size_eq : b.size = xs.length
  le_cap : xs.length ≤ b.slots.length
  first_lt : b.first < b.slots.length ∨ (b.slots.length = 0 ∧ b.first = 0)
  slot : ∀ i, i < b.slots.length → b.slots[b.slotOf i]? = some xs[i]?

theorem slotOf_lt {b : CircularBuffer α} (h : b.first < b.slots.length) {i : Nat}
    (hi : i < b.slots.length) : b.slotOf i < b.slots.length := by
  unfold slotOf capacity; dsimp only; split <;> omega

theorem slotOf_inj {b : CircularBuffer α} (h : b.first < b.slots.length) {i j : Nat}
    (hi : i < b.slots.length) (hj : j < b.slots.length) (e : b.slotOf i = b.slotOf j) : i = j := by
  unfold slotOf capacity at e; dsimp only at e; split at e <;> split at e <;> omega

theorem repr_init (cap : Nat) : Repr (init cap : CircularBuffer α) [] := by
  refine ⟨rfl, by simp, ?_, ?_⟩
  · show 0 < (List.replicate cap (none : Option α)).length ∨ _
    simp only [init, List.length_replicate]
    grind
  · intro i hi
    simp [init] at hi
    simp [slotOf, capacity, init, List.getElem?_replicate]
    grind

theorem Repr.get {b : CircularBuffer α} {xs : List α} (h : Repr b xs) (i : Nat) :
    b.get i = xs[i]? := by
  unfold CircularBuffer.get read
  split
  · rename_i hi
    rw [h.size_eq] at hi
    rw [h.slot i (by have := h.le_cap; omega)]
    simp [hi]
  · rename_i hi
    rw [h.size_eq] at hi
    exact (List.getElem?_eq_none (by omega)).symm

theorem Repr.contents {b : CircularBuffer α} {xs : List α} (h : Repr b xs) :
    b.contents = some xs := by
  unfold CircularBuffer.contents
  refine ListAux.mapM_range_eq_some _ _ _ h.size_eq ?_
  intro i hi
  rw [h.get]; simp [hi]

theorem Repr.front {b : CircularBuffer α} {xs : List α} (h : Repr b xs) :
    b.front = xs.head? := by
  have h1 := h.get 0
  unfold CircularBuffer.front CircularBuffer.empty
  unfold CircularBuffer.get at h1
  by_cases hs : b.size = 0
  · have : xs = [] := by have := h.size_eq; rw [hs] at this; exact List.length_eq_zero_iff.mp this.symm
    simp [hs, this]
  · have e : b.slotOf 0 = b.first := by
      have := h.first_lt; have := h.le_cap; have := h.size_eq
      unfold slotOf capacity; dsimp only; split <;> omega
    rw [if_pos (by omega), e] at h1
    simp [hs, h1, List.head?_eq_getElem?]

theorem Repr.back {b : CircularBuffer α} {xs : List α} (h : Repr b xs) :
    b.back = xs.getLast? := by
  unfold CircularBuffer.back CircularBuffer.empty
  by_cases hs : b.size = 0
  · have : xs = [] := by have := h.size_eq; rw [hs] at this; exact List.length_eq_zero_iff.mp this.symm
    simp [hs, this]
  · rw [h.size_eq] at hs
    simp only [h.get, List.getLast?_eq_getElem?, h.size_eq, beq_iff_eq, hs, if_false]

/-- Changing one slot of a represented buffer. -/
theorem set_slot {b : CircularBuffer α} (hf : b.first < b.slots.length) {j : Nat}
    (hj : j < b.slots.length) (v : Option α) (i : Nat) (hi : i < b.slots.length) :
    (b.slots.set (b.slotOf j) v)[b.slotOf i]? =
      if i = j then some v else b.slots[b.slotOf i]? := by
  by_cases e : i = j
  · subst e; simp [slotOf_lt hf hi]
  · have : b.slotOf j ≠ b.slotOf i := fun h => e (slotOf_inj hf hi hj h.symm)
    simp [this, e]

theorem slotOf_congr {b c : CircularBuffer α} (hf : b.first = c.first)
    (hl : b.slots.length = c.slots.length) (i : Nat) : b.slotOf i = c.slotOf i := by
  simp [slotOf, capacity, hf, hl]

/-- `slotOf` after moving `first` forward. -/
theorem slotOf_next {b c : CircularBuffer α} (hl : c.slots.length = b.slots.length)
    (hb : b.first < b.slots.length)
    (hf : c.first = if b.first + 1 = b.slots.length then 0 else b.first + 1) (i : Nat)
    (hi : i < b.slots.length) :
    c.slotOf i = if i + 1 = b.slots.length then b.slotOf 0 else b.slotOf (i + 1) := by
  unfold slotOf capacity; dsimp only; rw [hl, hf]; split <;> split <;> split <;> (try split) <;> omega

/-- `slotOf` after moving `first` backward. -/
theorem slotOf_prev {b c : CircularBuffer α} (hl : c.slots.length = b.slots.length)
    (hb : b.first < b.slots.length)
    (hf : c.first = if b.first = 0 then b.slots.length - 1 else b.first - 1) (i : Nat)
    (hi : i < b.slots.length) :
    c.slotOf i = if i = 0 then b.slotOf (b.slots.length - 1) else b.slotOf (i - 1) := by
  unfold slotOf capacity; dsimp only; rw [hl, hf]; split <;> split <;> split <;> (try split) <;> omega

theorem Repr.pushBack {b : CircularBuffer α} {xs : List α} (h : Repr b xs) (v : α)
    (hc : 0 < b.slots.length) :
    ∃ c, b.pushBack v = some c ∧ c.slots.length = b.slots.length ∧
      Repr c (if xs.length = b.slots.length then xs.tail ++ [v] else xs ++ [v]) := by
  have hf : b.first < b.slots.length := by have := h.first_lt; omega
  unfold CircularBuffer.pushBack
  rw [if_pos (by exact hc)]
  by_cases hfull : xs.length = b.slots.length
  · have e0 : b.slotOf 0 = b.first := by unfold slotOf capacity; dsimp only; split <;> omega
    have hs0 := h.slot 0 hc
    rw [e0] at hs0
    have hne : xs[0]? = some (xs[0]'(by omega)) := by simp
    rw [hne] at hs0
    have hfl : b.full = true := by simp [full, capacity, h.size_eq, hfull]
    rw [if_pos hfl]
    simp only [assign, hs0, nextMod, capacity, hc, hf, and_self, if_true, Option.bind_eq_bind,
      Option.bind_some, Option.pure_def]
    refine ⟨_, rfl, by simp, ?_⟩
    rw [if_pos hfull]
    refine ⟨?_, ?_, ?_, ?_⟩
    · simp [h.size_eq]; omega
    · simp; omega
    · left; simp; grind
    · intro i hi
      simp only [List.length_set] at hi
      rw [slotOf_next (b := b) (by simp) hf rfl i hi]
      simp only []
      rw [← e0]
      by_cases hil : i + 1 = b.slots.length
      · rw [if_pos hil, set_slot hf hc _ _ hc, if_pos rfl]
        have : i = xs.tail.length := by simp; omega
        rw [this]; simp
      · rw [if_neg hil, set_slot hf hc _ _ (by omega), if_neg (by omega), h.slot _ (by omega)]
        rw [List.getElem?_append_left (by simp; omega)]
        simp
  · have hfl : ¬ b.full = true := by simp [full, capacity, h.size_eq, hfull]
    have hlt : xs.length < b.slots.length := by have := h.le_cap; omega
    rw [if_neg hfl]
    have hs := h.slot xs.length hlt
    have : xs[xs.length]? = none := by simp
    rw [this] at hs
    simp only [construct, h.size_eq, hs, Option.bind_eq_bind, Option.bind_some, Option.pure_def]
    refine ⟨_, rfl, by simp, ?_⟩
    rw [if_neg hfull]
    refine ⟨?_, ?_, ?_, ?_⟩
    · simp
    · simp; omega
    · left; simpa using hf
    · intro i hi
      simp only [List.length_set] at hi
      have hcg : (⟨b.slots.set (b.slotOf xs.length) (some v), b.first, xs.length + 1⟩ :
          CircularBuffer α).slotOf i = b.slotOf i := by
          apply slotOf_congr <;> simp
      rw [hcg]; dsimp only
      rw [set_slot hf hlt _ _ hi]
      by_cases e : i = xs.length
      · subst e; simp
      · rw [if_neg e, h.slot i hi]
        by_cases hlt' : i < xs.length
        · rw [List.getElem?_append_left hlt']
        · rw [List.getElem?_eq_none (by omega), List.getElem?_eq_none (by simp; omega)]

theorem Repr.pushFront {b : CircularBuffer α} {xs : List α} (h : Repr b xs) (v : α)
    (hc : 0 < b.slots.length) :
    ∃ c, b.pushFront v = some c ∧ c.slots.length = b.slots.length ∧
      Repr c (if xs.length = b.slots.length then v :: xs.dropLast else v :: xs) := by
  have hf : b.first < b.slots.length := by have := h.first_lt; omega
  unfold CircularBuffer.pushFront
  rw [if_pos (by exact hc)]
  have e0 : b.slotOf (b.slots.length - 1) =
      (if b.first = 0 then b.slots.length - 1 else b.first - 1) := by
    unfold slotOf capacity; dsimp only; split <;> split <;> omega
  have hlast : b.slots.length - 1 < b.slots.length := by omega
  have hs := h.slot (b.slots.length - 1) hlast
  simp only [prevMod, capacity, hc, hf, and_self, if_true, Option.bind_eq_bind, Option.bind_some,
    ← e0]
  by_cases hfull : xs.length = b.slots.length
  · have hfl : b.full = true := by simp [full, capacity, h.size_eq, hfull]
    rw [if_pos hfl, if_pos hfull]
    rw [List.getElem?_eq_getElem (l := xs) (by omega)] at hs
    simp only [assign, hs, Option.bind_some, Option.pure_def]
    refine ⟨_, rfl, by simp, ?_⟩
    refine ⟨?_, ?_, ?_, ?_⟩
    · simp [h.size_eq]; omega
    · simp; omega
    · left; simp; exact slotOf_lt hf hlast
    · intro i hi
      simp only [List.length_set] at hi
      rw [slotOf_prev (b := b) (by simp) hf e0 i hi]
      by_cases hi0 : i = 0
      · rw [if_pos hi0, set_slot hf hlast _ _ hlast, if_pos rfl]; simp [hi0]
      · rw [if_neg hi0, set_slot hf hlast _ _ (by omega), if_neg (by omega), h.slot _ (by omega)]
        obtain ⟨k, rfl⟩ : ∃ k, i = k + 1 := ⟨i - 1, by omega⟩
        simp [List.getElem?_dropLast]
        intro; omega
  · have hfl : ¬ b.full = true := by simp [full, capacity, h.size_eq, hfull]
    have hlt : xs.length < b.slots.length := by have := h.le_cap; omega
    rw [if_neg hfl, if_neg hfull]
    rw [List.getElem?_eq_none (l := xs) (by omega)] at hs
    simp only [construct, hs, Option.bind_some, Option.pure_def]
    refine ⟨_, rfl, by simp, ?_⟩
    refine ⟨?_, ?_, ?_, ?_⟩
    · simp [h.size_eq]
    · simp; omega
    · left; simp; exact slotOf_lt hf hlast
    · intro i hi
      simp only [List.length_set] at hi
      rw [slotOf_prev (b := b) (by simp) hf e0 i hi]
      by_cases hi0 : i = 0
      · rw [if_pos hi0, set_slot hf hlast _ _ hlast, if_pos rfl]; simp [hi0]
      · rw [if_neg hi0, set_slot hf hlast _ _ (by omega), if_neg (by omega), h.slot _ (by omega)]
        obtain ⟨k, rfl⟩ : ∃ k, i = k + 1 := ⟨i - 1, by omega⟩
        simp

theorem Repr.popFront {b : CircularBuffer α} {xs : List α} (h : Repr b xs) (hx : xs ≠ []) :
    ∃ c, b.popFront = some c ∧ c.slots.length = b.slots.length ∧ Repr c xs.tail := by
  have hpos : 0 < xs.length := List.length_pos_iff.mpr hx
  have hc : 0 < b.slots.length := by have := h.le_cap; omega
  have hf : b.first < b.slots.length := by have := h.first_lt; omega
  have e0 : b.slotOf 0 = b.first := by unfold slotOf capacity; dsimp only; split <;> omega
  have hs0 := h.slot 0 hc
  rw [List.getElem?_eq_getElem hpos, e0] at hs0
  have hem : ¬ b.empty = true := by simp [CircularBuffer.empty, h.size_eq]; exact hx
  unfold CircularBuffer.popFront
  rw [if_neg hem]
  simp only [destroySlot, hs0, nextMod, capacity, hc, hf, and_self, if_true, Option.bind_eq_bind,
    Option.bind_some, Option.pure_def]
  refine ⟨_, rfl, by simp, ?_⟩
  have hle := h.le_cap
  refine ⟨?_, ?_, ?_, ?_⟩
  · simp [h.size_eq]
  · simp; omega
  · left; simp; grind
  · intro i hi
    simp only [List.length_set] at hi
    rw [slotOf_next (b := b) (by simp) hf rfl i hi]
    simp only []
    rw [← e0]
    by_cases hil : i + 1 = b.slots.length
    · rw [if_pos hil, set_slot hf hc _ _ hc, if_pos rfl]
      rw [List.getElem?_eq_none (by simp; omega)]
    · rw [if_neg hil, set_slot hf hc _ _ (by omega), if_neg (by omega), h.slot _ (by omega)]
      simp

theorem Repr.popBack {b : CircularBuffer α} {xs : List α} (h : Repr b xs) (hx : xs ≠ []) :
    ∃ c, b.popBack = some c ∧ c.slots.length = b.slots.length ∧ Repr c xs.dropLast := by
  have hpos : 0 < xs.length := List.length_pos_iff.mpr hx
  have hle := h.le_cap
  have hc : 0 < b.slots.length := by omega
  have hf : b.first < b.slots.length := by have := h.first_lt; omega
  have hs := h.slot (xs.length - 1) (by omega)
  rw [List.getElem?_eq_getElem (l := xs) (by omega)] at hs
  have hem : ¬ b.empty = true := by simp [CircularBuffer.empty, h.size_eq]; exact hx
  unfold CircularBuffer.popBack
  rw [if_neg hem]
  simp only [destroySlot, h.size_eq, hs, Option.bind_eq_bind, Option.bind_some, Option.pure_def]
  refine ⟨_, rfl, by simp, ?_⟩
  refine ⟨?_, ?_, ?_, ?_⟩
  · simp
  · simp; omega
  · left; simpa using hf
  · intro i hi
    simp only [List.length_set] at hi
    have hcg : (⟨b.slots.set (b.slotOf (xs.length - 1)) none, b.first, xs.length - 1⟩ :
        CircularBuffer α).slotOf i = b.slotOf i := by
          apply slotOf_congr <;> simp
    rw [hcg]; dsimp only
    rw [set_slot hf (by omega) _ _ hi]
    by_cases e : i = xs.length - 1
    · rw [if_pos e, List.getElem?_eq_none (by simp; omega)]
    · rw [if_neg e, h.slot i hi, List.getElem?_dropLast]
      split
      · rfl
      · rw [List.getElem?_eq_none (by omega)]

/-- Invariant of the destruction loop of `clear`. -/
theorem clear_loop {b : CircularBuffer α} {xs : List α} (h : Repr b xs) :
    ∀ k, k ≤ xs.length → ∃ c, (List.range k).foldlM
        (fun (c : CircularBuffer α) pos => c.destroySlot (c.slotOf pos)) b = some c ∧
      c.first = b.first ∧ c.slots.length = b.slots.length ∧
      ∀ i, i < b.slots.length → c.slots[b.slotOf i]? = some (if i < k then none else xs[i]?) := by
  intro k
  induction k with
  | zero => intro _; exact ⟨b, by simp, rfl, rfl, by simpa using h.slot⟩
  | succ k ih =>
    intro hk
    obtain ⟨c, hc, hcf, hcl, hcs⟩ := ih (by omega)
    have hle := h.le_cap
    have hf : b.first < b.slots.length := by have := h.first_lt; omega
    have hk' := hcs k (by omega)
    rw [if_neg (by omega), List.getElem?_eq_getElem (l := xs) (by omega)] at hk'
    have hsl : c.slotOf k = b.slotOf k := slotOf_congr hcf hcl k
    refine ⟨{ c with slots := c.slots.set (c.slotOf k) none }, ?_, hcf, by simpa using hcl, ?_⟩
    · rw [List.range_succ, List.foldlM_append, hc]
      simp [destroySlot, hsl, hk']
    · intro i hi
      simp only []
      rw [← slotOf_congr hcf hcl i, set_slot (by omega) (by omega) _ _ (by omega)]
      by_cases e : i = k
      · rw [if_pos e, if_pos (by omega)]
      · rw [if_neg e, slotOf_congr hcf hcl i, hcs i hi]
        by_cases hlt : i < k
        · rw [if_pos hlt, if_pos (by omega)]
        · rw [if_neg hlt, if_neg (by omega)]

theorem Repr.clear {b : CircularBuffer α} {xs : List α} (h : Repr b xs) :
    ∃ c, b.clear = some c ∧ c.slots.length = b.slots.length ∧ Repr c [] := by
  obtain ⟨c, hc, hcf, hcl, hcs⟩ := clear_loop h xs.length (Nat.le_refl _)
  unfold CircularBuffer.clear
  rw [h.size_eq, hc]
  refine ⟨_, rfl, hcl, rfl, by simp, ?_, ?_⟩
  · have := h.first_lt
    simp only [hcl]; grind
  · intro i hi
    simp only [hcl] at hi
    -- every physical slot is dead now
    have hf : b.first < b.slots.length := by have := h.first_lt; omega
    have e : (⟨c.slots, 0, 0⟩ : CircularBuffer α).slotOf i = i := by
      unfold slotOf capacity; dsimp only; split <;> omega
    rw [e]
    obtain ⟨j, hj, hji⟩ : ∃ j, j < b.slots.length ∧ b.slotOf j = i := by
      refine ⟨if b.first ≤ i then i - b.first else i + b.slots.length - b.first, ?_, ?_⟩
      · split <;> omega
      · unfold slotOf capacity; dsimp only; split <;> split <;> omega
    have := hcs j hj
    rw [hji] at this
    simp only []
    rw [this]
    by_cases hjx : j < xs.length
    · simp [hjx]
    · rw [if_neg hjx]; rw [List.getElem?_eq_none (l := xs) (by omega)]; rfl

theorem repr_fresh (cap : Nat) (xs : List α) (h : xs.length ≤ cap) (n : Nat)
    (hn : n = xs.length) :
    Repr ⟨xs.map some ++ List.replicate (cap - n) none, 0, n⟩ xs := by
  subst hn
  refine ⟨rfl, by simp, ?_, ?_⟩
  · simp only [List.length_append, List.length_map, List.length_replicate]; grind
  · intro i hi
    simp at hi
    have : (⟨xs.map some ++ List.replicate (cap - xs.length) none, 0, xs.length⟩ :
        CircularBuffer α).slotOf i = i := by
      unfold slotOf capacity; dsimp only; simp; grind
    rw [this]
    simp only []
    by_cases hx : i < xs.length
    · rw [List.getElem?_append_left (by simpa using hx)]; simp [hx]
    · rw [List.getElem?_append_right (by simp; omega)]
      simp [List.getElem?_replicate]
      constructor
      · omega
      · omega

theorem Repr.setCapacity {b : CircularBuffer α} {xs : List α} (h : Repr b xs) (n : Nat) :
    ∃ c, b.setCapacity n = some c ∧ c.slots.length = n ∧ Repr c (xs.take n) := by
  unfold CircularBuffer.setCapacity
  by_cases hn : n = b.capacity
  · rw [if_pos hn]
    have hle := h.le_cap
    refine ⟨b, rfl, hn.symm, ?_⟩
    rw [List.take_of_length_le (by simp only [capacity] at hn; omega)]
    exact h
  · rw [if_neg hn]
    obtain ⟨c, hc, -, -⟩ := h.clear
    have hm : (List.range (min n b.size)).mapM b.get = some (xs.take n) := by
      refine ListAux.mapM_range_eq_some _ _ _ (by simp [h.size_eq]) ?_
      intro i hi
      rw [h.get]; simp at hi ⊢
    simp only [hm, hc, Option.bind_eq_bind, Option.bind_some, Option.pure_def]
    refine ⟨_, rfl, ?_, ?_⟩
    · simp [h.size_eq]; omega
    · exact repr_fresh n (xs.take n) (by simp; omega) _ (by simp [h.size_eq])

theorem Repr.reset {b : CircularBuffer α} {xs : List α} (h : Repr b xs) (n : Nat) :
    ∃ c, b.reset n = some c ∧ c.slots.length = n ∧ Repr c [] := by
  obtain ⟨c, hc, hcl, hr⟩ := h.clear
  unfold CircularBuffer.reset
  rw [hc]
  simp only [Option.bind_eq_bind, Option.bind_some, Option.pure_def]
  by_cases hn : n = c.capacity
  · rw [if_pos hn]; exact ⟨c, rfl, hn.symm, hr⟩
  · rw [if_neg hn]
    refine ⟨_, rfl, by simp, ?_⟩
    have hz : c.first = 0 := by
      unfold CircularBuffer.clear at hc
      cases hfold : (List.range b.size).foldlM
          (fun (c : CircularBuffer α) pos => c.destroySlot (c.slotOf pos)) b with
      | none => simp [hfold] at hc
      | some d => simp [hfold] at hc; rw [← hc]
    have hz' : c.size = 0 := hr.size_eq
    have := repr_fresh (α := α) n [] (by simp) 0 rfl
    simpa [hz, hz'] using this

/-- One step: model and ideal deque agree on failure and on the represented list. -/
theorem step_refines {b : CircularBuffer α} {d : Spec.Deque α} (h : Repr b d.items)
    (hcap : b.slots.length = d.cap) (op : Op α) :
    (b.step op = none ∧ d.step op = none) ∨
    ∃ c e, b.step op = some c ∧ d.step op = some e ∧ Repr c e.items ∧ c.slots.length = e.cap := by
  cases op with
  | pushBack v =>
    by_cases hc : d.cap = 0
    · left; simp [step, CircularBuffer.pushBack, Spec.Deque.step, hc, capacity, hcap]
    · right
      obtain ⟨c, h1, h2, h3⟩ := h.pushBack v (by omega)
      rw [hcap] at h3
      simp only [step, Spec.Deque.step, hc, if_false]
      split
      · rename_i hl; rw [if_pos hl] at h3; exact ⟨c, _, h1, rfl, h3, by simp [h2, hcap]⟩
      · rename_i hl; rw [if_neg hl] at h3; exact ⟨c, _, h1, rfl, h3, by simp [h2, hcap]⟩
  | pushFront v =>
    by_cases hc : d.cap = 0
    · left; simp [step, CircularBuffer.pushFront, Spec.Deque.step, hc, capacity, hcap]
    · right
      obtain ⟨c, h1, h2, h3⟩ := h.pushFront v (by omega)
      rw [hcap] at h3
      simp only [step, Spec.Deque.step, hc, if_false]
      split
      · rename_i hl; rw [if_pos hl] at h3; exact ⟨c, _, h1, rfl, h3, by simp [h2, hcap]⟩
      · rename_i hl; rw [if_neg hl] at h3; exact ⟨c, _, h1, rfl, h3, by simp [h2, hcap]⟩
  | popBack =>
    by_cases hx : d.items = []
    · left
      simp [step, CircularBuffer.popBack, Spec.Deque.step, hx, CircularBuffer.empty, h.size_eq]
    · right
      obtain ⟨c, h1, h2, h3⟩ := h.popBack hx
      simp only [step, Spec.Deque.step, hx, if_false]
      exact ⟨c, _, h1, rfl, h3, by simp [h2, hcap]⟩
  | popFront =>
    by_cases hx : d.items = []
    · left
      simp [step, CircularBuffer.popFront, Spec.Deque.step, hx, CircularBuffer.empty, h.size_eq]
    · right
      obtain ⟨c, h1, h2, h3⟩ := h.popFront hx
      simp only [step, Spec.Deque.step, hx, if_false]
      exact ⟨c, _, h1, rfl, h3, by simp [h2, hcap]⟩
  | clear =>
    right
    obtain ⟨c, h1, h2, h3⟩ := h.clear
    exact ⟨c, _, h1, rfl, h3, by simp [h2, hcap]⟩
  | setCapacity n =>
    right
    obtain ⟨c, h1, h2, h3⟩ := h.setCapacity n
    exact ⟨c, _, h1, rfl, h3, h2⟩
  | reset n =>
    right
    obtain ⟨c, h1, h2, h3⟩ := h.reset n
    exact ⟨c, _, h1, rfl, h3, h2⟩

theorem run_refines (ops : List (Op α)) : ∀ {b : CircularBuffer α} {d : Spec.Deque α},
    Repr b d.items → b.slots.length = d.cap →
    (b.run ops = none ∧ d.run ops = none) ∨
    ∃ c e, b.run ops = some c ∧ d.run ops = some e ∧ Repr c e.items ∧ c.slots.length = e.cap := by
  induction ops with
  | nil => intro b d h hc; right; exact ⟨b, d, rfl, rfl, h, hc⟩
  | cons op ops ih =>
    intro b d h hc
    rcases step_refines h hc op with ⟨h1, h2⟩ | ⟨c, e, h1, h2, h3, h4⟩
    · left; simp [run, Spec.Deque.run, List.foldlM_cons, h1, h2]
    · rcases ih h3 h4 with ⟨i1, i2⟩ | ⟨c', e', i1, i2, i3, i4⟩
      · left; simp only [run, Spec.Deque.run] at i1 i2
        simp [run, Spec.Deque.run, List.foldlM_cons, h1, h2, i1, i2]
      · right; simp only [run, Spec.Deque.run] at i1 i2
        exact ⟨c', e', by simp [run, List.foldlM_cons, h1, i1],
          by simp [Spec.Deque.run, List.foldlM_cons, h2, i2], i3, i4⟩

end Gapp.Model.CircularBuffer
