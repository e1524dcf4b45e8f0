import Verif.Model.CircularOwnership
import Verif.Spec.CircularOwnership
import Verif.Proofs.CircularBuffer
import Mathlib.Tactic

namespace Gapp.Model
open CircularBuffer
variable {α : Type}

/-- The memory of a variable represents the ideal deque. -/
def CbVarOk (heap : CbHeap α) (o : CbObj) (q : Spec.Deque α) : Prop :=
  (o = cbNull ∧ q.cap = 0 ∧ q.items = []) ∨
  ∃ a slots, o.buf = some a ∧ heap[a]? = some (some slots) ∧ slots.length = o.cap ∧ o.cap = q.cap ∧
    Repr ⟨slots, o.first, o.size⟩ q.items

theorem CbVarOk.frame {heap heap' : CbHeap α} {o : CbObj} {q : Spec.Deque α} (h : CbVarOk heap o q)
    (hf : ∀ a, o.buf = some a → heap'[a]? = heap[a]?) : CbVarOk heap' o q := by
  rcases h with h | ⟨a, slots, h1, h2, h3⟩
  · exact Or.inl h
  · exact Or.inr ⟨a, slots, h1, by rw [hf a h1, h2], h3⟩

theorem CbVarOk.live {heap : CbHeap α} {o : CbObj} {q : Spec.Deque α} (h : CbVarOk heap o q) {a : Nat} (ha : o.buf = some a) :
    a < heap.length ∧ ∃ slots, heap[a]? = some (some slots) := by
  rcases h with ⟨h, _⟩ | ⟨a', slots, h1, h2, h3⟩
  · rw [h] at ha; simp [cbNull] at ha
  · rw [h1] at ha; cases ha
    exact ⟨(List.getElem?_eq_some_iff.mp h2).1, slots, h2⟩

theorem CbVarOk.view {heap : CbHeap α} {o : CbObj} {q : Spec.Deque α} (h : CbVarOk heap o q) :
    ∃ b, cbView heap o = some b ∧ Repr b q.items ∧ b.slots.length = q.cap ∧ b.slots.length = o.cap ∧ b.size = o.size := by
  rcases h with ⟨h, hc, hi⟩ | ⟨a, slots, h1, h2, h3, h4, h5⟩
  · subst h
    refine ⟨⟨[], 0, 0⟩, rfl, ?_, by simp [hc], rfl, rfl⟩
    rw [hi]; exact repr_init 0
  · exact ⟨⟨slots, o.first, o.size⟩, by simp [cbView, h1, h2, h3], h5, by simp [h3, h4], h3, rfl⟩

theorem CbVarOk.cap {heap : CbHeap α} {o : CbObj} {q : Spec.Deque α} (h : CbVarOk heap o q) : o.cap = q.cap := by
  obtain ⟨b, _, _, h1, h2, _⟩ := h.view; omega

theorem CbVarOk.size {heap : CbHeap α} {o : CbObj} {q : Spec.Deque α} (h : CbVarOk heap o q) : o.size = q.items.length := by
  obtain ⟨b, _, h1, _, _, h2⟩ := h.view
  rw [← h2, h1.size_eq]

theorem CbVarOk.le {heap : CbHeap α} {o : CbObj} {q : Spec.Deque α} (h : CbVarOk heap o q) : q.items.length ≤ q.cap := by
  obtain ⟨b, _, h1, h2, _, _⟩ := h.view
  have := h1.le_cap
  omega

theorem slotOf_surj {b : CircularBuffer α} (h : b.first < b.slots.length) {j : Nat} (hj : j < b.slots.length) :
    ∃ i, i < b.slots.length ∧ b.slotOf i = j := by
  unfold slotOf capacity
  dsimp only
  by_cases hjf : b.first ≤ j
  · refine ⟨j - b.first, by omega, ?_⟩
    rw [if_neg (by omega)]; omega
  · refine ⟨j + b.slots.length - b.first, by omega, ?_⟩
    rw [if_pos (by omega)]; omega

theorem repr_nil_all {b : CircularBuffer α} (h : Repr b []) : b.slots.all Option.isNone = true := by
  rw [List.all_eq_true]
  intro v hv
  obtain ⟨j, hj, hjv⟩ := List.getElem_of_mem hv
  have hf : b.first < b.slots.length := by have := h.first_lt; omega
  obtain ⟨i, hi, hij⟩ := slotOf_surj hf hj
  have := h.slot i hi
  rw [hij, List.getElem?_eq_getElem hj, hjv] at this
  simp at this
  simp [this]

theorem cbDestroy_ok {heap : CbHeap α} {o : CbObj} {q : Spec.Deque α} (h : CbVarOk heap o q) :
    ∃ heap', cbDestroy heap o = some heap' ∧ heap'.length = heap.length ∧ (∀ a, o.buf = some a → heap'[a]? = some none) ∧
      ∀ a, o.buf ≠ some a → heap'[a]? = heap[a]? := by
  have h0 := h
  rcases h with ⟨h, hc, hi⟩ | ⟨a, slots, h1, h2, h3, h4, h5⟩
  · subst h
    exact ⟨heap, rfl, rfl, by simp [cbNull], by simp⟩
  · obtain ⟨c, hc, hcl, hr⟩ := h5.clear
    have ha : a < heap.length := (List.getElem?_eq_some_iff.mp h2).1
    have hview : cbView heap o = some ⟨slots, o.first, o.size⟩ := by simp [cbView, h1, h2, h3]
    refine ⟨heap.set a none, ?_, by simp, ?_, ?_⟩
    · unfold cbDestroy
      simp only [h1, hview, Option.bind_eq_bind, Option.bind_some, hc]
      unfold cbDeallocate
      have hg : (heap.set a (some c.slots))[a]? = some (some c.slots) := by simp [ha]
      simp only [hg]
      rw [if_pos ⟨by rw [hcl]; exact h3, repr_nil_all hr⟩, List.set_set]
    · intro a' ha'
      rw [h1] at ha'; cases ha'
      simp [ha]
    · intro a' ha'
      have : a ≠ a' := fun e => ha' (by rw [h1, e])
      simp [this]

theorem foldlM_range_succ {β : Type} (f : β → Nat → Option β) (b : β) (n : Nat) :
    (List.range (n + 1)).foldlM f b = ((List.range n).foldlM f b).bind (fun c => f c n) := by
  rw [List.range_succ, List.foldlM_append]
  rcases (List.range n).foldlM f b with _ | c <;> simp

theorem cbDestroyRange_ok (a : Nat) (ys : List α) (rest : List (Option α)) (heap : CbHeap α)
    (h : heap[a]? = some (some (ys.map some ++ rest))) :
    ∀ k, k ≤ ys.length → cbDestroyRange heap a k = some (heap.set a (some (List.replicate k none ++ ((ys.drop k).map some ++ rest)))) := by
  have ha : a < heap.length := (List.getElem?_eq_some_iff.mp h).1
  intro k
  induction k with
  | zero =>
    intro _
    simp only [cbDestroyRange, List.range_zero, List.foldlM_nil, Option.pure_def]
    congr 1
    symm
    apply List.ext_getElem?
    intro i
    rw [List.getElem?_set]
    split
    · rename_i e; subst e; simp [ha] at h ⊢; exact h.symm
    · rfl
  | succ k ih =>
    intro hk
    have := ih (by omega)
    unfold cbDestroyRange at this ⊢
    rw [foldlM_range_succ, this, Option.bind_some]
    unfold cbDestroyAt
    have hg : (heap.set a (some (List.replicate k none ++ ((ys.drop k).map some ++ rest))))[a]? = some (some (List.replicate k none ++ ((ys.drop k).map some ++ rest))) := by simp [ha]
    simp only [hg]
    have hd : ys.drop k = ys[k] :: ys.drop (k + 1) := List.drop_eq_getElem_cons (by omega)
    have hs : (List.replicate k none ++ ((ys.drop k).map some ++ rest))[k]? = some (some ys[k]) := by
      rw [List.getElem?_append_right (by simp), hd, List.map_cons]; simp only [List.length_replicate, Nat.sub_self, List.cons_append, List.getElem?_cons_zero]
    simp only [hs]
    rw [List.set_set]
    congr 3
    rw [List.set_append_right _ _ (by simp), hd]
    simp only [List.length_replicate, Nat.sub_self, List.map_cons, List.cons_append, List.set_cons_zero]
    rw [List.replicate_succ']
    simp

theorem cbSpend_none {limit : Option Nat} (n : Nat) (h : cbSpend limit = none) : Spec.DequeVars.throws limit (n + 1) = true ∧ limit = some 0 := by
  rcases limit with _ | _ | k
  · simp [cbSpend] at h
  · simp [Spec.DequeVars.throws]
  · simp [cbSpend] at h

theorem cbSpend_some {limit l : Option Nat} (n : Nat) (h : cbSpend limit = some l) :
    Spec.DequeVars.throws limit (n + 1) = Spec.DequeVars.throws l n := by
  rcases limit with _ | _ | k
  · simp only [cbSpend, Option.some.injEq] at h; subst h; rfl
  · simp [cbSpend] at h
  · simp only [cbSpend, Option.some.injEq] at h; subst h; simp [Spec.DequeVars.throws]

theorem throws_zero (limit : Option Nat) : Spec.DequeVars.throws limit 0 = false := by
  rcases limit with _ | k <;> simp [Spec.DequeVars.throws]

theorem cbFill_ok (a : Nat) (xs : List α) : ∀ (ys : List α) (r : Nat) (heap : CbHeap α) (limit : Option Nat),
    heap[a]? = some (some (ys.map some ++ List.replicate r none)) → xs.length ≤ r →
    cbFill a heap ys.length xs limit =
      if Spec.DequeVars.throws limit xs.length then some (heap.set a (some (List.replicate (ys.length + r) none)), false)
      else some (heap.set a (some ((ys ++ xs).map some ++ List.replicate (r - xs.length) none)), true) := by
  induction xs with
  | nil =>
    intro ys r heap limit h hr
    have ha : a < heap.length := (List.getElem?_eq_some_iff.mp h).1
    rw [List.length_nil, throws_zero]
    simp only [cbFill, Bool.false_eq_true, if_false, List.append_nil, Nat.sub_zero]
    congr 2
    symm
    apply List.ext_getElem?
    intro i
    rw [List.getElem?_set]
    split
    · rename_i e; subst e; simp [ha] at h ⊢; exact h.symm
    · rfl
  | cons x xs ih =>
    intro ys r heap limit h hr
    have ha : a < heap.length := (List.getElem?_eq_some_iff.mp h).1
    rw [List.length_cons] at hr ⊢
    unfold cbFill
    rcases hsp : cbSpend limit with _ | l
    · rw [(cbSpend_none _ hsp).1]
      simp only [if_true]
      rw [cbDestroyRange_ok a ys _ heap h ys.length (Nat.le_refl _)]
      simp
    · rw [cbSpend_some _ hsp]
      simp only
      have hc : cbConstruct heap a ys.length x = some (heap.set a (some ((ys ++ [x]).map some ++ List.replicate (r - 1) none))) := by
        unfold cbConstruct
        simp only [h]
        obtain ⟨r', rfl⟩ : ∃ r', r = r' + 1 := ⟨r - 1, by omega⟩
        have : (ys.map some ++ List.replicate (r' + 1) (none : Option α))[ys.length]? = some none := by
          rw [List.getElem?_append_right (by simp)]; simp
        simp only [this]
        congr 3
        rw [List.set_append_right _ _ (by simp)]
        simp [List.replicate_succ]
      rw [hc]
      simp only [Option.bind_eq_bind, Option.bind_some]
      have := ih (ys ++ [x]) (r - 1) (heap.set a (some ((ys ++ [x]).map some ++ List.replicate (r - 1) none))) l (by simp [ha]) (by omega)
      rw [List.length_append, List.length_singleton] at this
      rw [this, List.set_set, List.set_set]
      have e1 : ys.length + 1 + (r - 1) = ys.length + r := by omega
      have e2 : r - 1 - xs.length = r - (xs.length + 1) := by omega
      rw [e1, e2, List.append_assoc]
      rfl

/-- Filling a block that was just allocated. -/
theorem cbFill_new (heap : CbHeap α) (n : Nat) (xs : List α) (limit : Option Nat) (h : xs.length ≤ n) :
    cbFill heap.length (cbAllocate heap n) 0 xs limit =
      if Spec.DequeVars.throws limit xs.length then some (heap ++ [some (List.replicate n none)], false)
      else some (heap ++ [some (xs.map some ++ List.replicate (n - xs.length) none)], true) := by
  have := cbFill_ok heap.length xs [] n (cbAllocate heap n) limit (by simp [cbAllocate]) h
  rw [List.length_nil] at this
  rw [this]
  simp [cbAllocate]

theorem cbDeallocate_new (heap : CbHeap α) (n : Nat) : cbDeallocate (heap ++ [some (List.replicate n none)]) heap.length n = some (heap ++ [none]) := by
  unfold cbDeallocate
  simp

/-- The range constructor. -/
theorem cbRange_ok (heap : CbHeap α) (n : Nat) (xs : List α) (limit : Option Nat) :
    (Spec.DequeVars.throws limit (1 + min n xs.length) = true ∧
      (cbRange heap n xs limit = some (heap, none) ∨ cbRange heap n xs limit = some (heap ++ [none], none))) ∨
    (Spec.DequeVars.throws limit (1 + min n xs.length) = false ∧
      ∃ slots, cbRange heap n xs limit = some (heap ++ [some slots], some ⟨some heap.length, 0, min n xs.length, n⟩) ∧
        slots.length = n ∧ Repr ⟨slots, 0, min n xs.length⟩ (xs.drop (xs.length - n))) := by
  unfold cbRange
  rw [Nat.add_comm 1]
  rcases hsp : cbSpend limit with _ | l
  · exact Or.inl ⟨(cbSpend_none _ hsp).1, Or.inl rfl⟩
  · rw [cbSpend_some _ hsp]
    have hlen : (xs.drop (xs.length - min n xs.length)).length = min n xs.length := by rw [List.length_drop]; omega
    simp only [cbFill_new heap n _ l (by rw [hlen]; omega), hlen]
    cases ht : Spec.DequeVars.throws l (min n xs.length) with
    | true =>
      left
      simp [cbDeallocate_new]
    | false =>
      right
      refine ⟨rfl, (xs.drop (xs.length - min n xs.length)).map some ++ List.replicate (n - min n xs.length) none, by simp, ?_, ?_⟩
      · simp; omega
      · have e : xs.drop (xs.length - min n xs.length) = xs.drop (xs.length - n) := by
          congr 1; omega
        rw [e] at hlen ⊢
        exact repr_fresh n _ (by omega) _ hlen.symm

/-- The free store and the variables represent the ideal deques: every variable has its own block and every block that is not freed has a variable. -/
structure CbRel (s : CbMem α) (d : Spec.DequeVars α) : Prop where
  len : s.vars.length = d.length
  dead : ∀ x : Nat, s.vars[x]? = some none ↔ d[x]? = some none
  ok : ∀ (x : Nat) o q, s.vars[x]? = some (some o) → d[x]? = some (some q) → CbVarOk s.heap o q
  apart : ∀ (x y : Nat) ox oy a, s.vars[x]? = some (some ox) → s.vars[y]? = some (some oy) → ox.buf = some a → oy.buf = some a → x = y
  owned : ∀ (a : Nat) slots, s.heap[a]? = some (some slots) → ∃ (x : Nat) (o : CbObj), s.vars[x]? = some (some o) ∧ o.buf = some a

theorem CbRel.cases {s : CbMem α} {d : Spec.DequeVars α} (h : CbRel s d) (x : Nat) :
    (s.vars[x]? = none ∧ d[x]? = none) ∨ (s.vars[x]? = some none ∧ d[x]? = some none) ∨
    ∃ o q, s.vars[x]? = some (some o) ∧ d[x]? = some (some q) ∧ CbVarOk s.heap o q := by
  by_cases hx : x < s.vars.length
  · have hx' : x < d.length := by rw [← h.len]; exact hx
    rcases hv : s.vars[x] with _ | o
    · have : s.vars[x]? = some none := by rw [List.getElem?_eq_getElem hx, hv]
      exact Or.inr (Or.inl ⟨this, (h.dead x).mp this⟩)
    · have hv' : s.vars[x]? = some (some o) := by rw [List.getElem?_eq_getElem hx, hv]
      rcases hd : d[x] with _ | q
      · have : d[x]? = some none := by rw [List.getElem?_eq_getElem hx', hd]
        rw [(h.dead x).mpr this] at hv'; simp at hv'
      · have hd' : d[x]? = some (some q) := by rw [List.getElem?_eq_getElem hx', hd]
        exact Or.inr (Or.inr ⟨o, q, hv', hd', h.ok x o q hv' hd'⟩)
  · left
    exact ⟨List.getElem?_eq_none (by omega), List.getElem?_eq_none (by have := h.len; omega)⟩

theorem CbRel.okAt {s : CbMem α} {d : Spec.DequeVars α} (h : CbRel s d) {x : Nat} {o : CbObj} (hx : s.vars[x]? = some (some o)) :
    ∃ q, d[x]? = some (some q) ∧ CbVarOk s.heap o q := by
  rcases h.cases x with ⟨h1, _⟩ | ⟨h1, _⟩ | ⟨o', q, h1, h2, h3⟩
  · rw [h1] at hx; simp at hx
  · rw [h1] at hx; simp at hx
  · rw [h1] at hx; cases hx; exact ⟨q, h2, h3⟩

/-- Replacing one variable. -/
theorem CbRel.update {s : CbMem α} {d : Spec.DequeVars α} (h : CbRel s d) (x : Nat) (hx : x < s.vars.length) (heap' : CbHeap α)
    (o' : Option CbObj) (q' : Option (Spec.Deque α))
    (hoq : (o' = none ∧ q' = none) ∨ ∃ o q, o' = some o ∧ q' = some q ∧ CbVarOk heap' o q)
    (frame : ∀ (y : Nat) oy a, y ≠ x → s.vars[y]? = some (some oy) → oy.buf = some a → heap'[a]? = s.heap[a]?)
    (hap : ∀ o a (y : Nat) oy, o' = some o → o.buf = some a → y ≠ x → s.vars[y]? = some (some oy) → oy.buf ≠ some a)
    (hown : ∀ (a : Nat) slots, heap'[a]? = some (some slots) → (∃ o, o' = some o ∧ o.buf = some a) ∨
      ((∃ sl, s.heap[a]? = some (some sl)) ∧ ∀ ox, s.vars[x]? = some (some ox) → ox.buf ≠ some a)) :
    CbRel ⟨heap', s.vars.set x o'⟩ (d.set x q') := by
  have hx' : x < d.length := by rw [← h.len]; exact hx
  have gx : (s.vars.set x o')[x]? = some o' := by simp [hx]
  have dx : (d.set x q')[x]? = some q' := by simp [hx']
  have gy : ∀ y : Nat, y ≠ x → (s.vars.set x o')[y]? = s.vars[y]? := by intro y hy; simp [Ne.symm hy]
  have dy : ∀ y : Nat, y ≠ x → (d.set x q')[y]? = d[y]? := by intro y hy; simp [Ne.symm hy]
  constructor
  · simp [h.len]
  · intro y
    by_cases hy : y = x
    · subst hy
      show (s.vars.set y o')[y]? = _ ↔ _
      rw [gx, dx]
      rcases hoq with ⟨h1, h2⟩ | ⟨o, q, h1, h2, _⟩
      · simp [h1, h2]
      · simp [h1, h2]
    · show (s.vars.set x o')[y]? = _ ↔ _
      rw [gy y hy, dy y hy]; exact h.dead y
  · intro y o q h1 h2
    change (s.vars.set x o')[y]? = _ at h1
    by_cases hy : y = x
    · subst hy
      rw [gx] at h1; rw [dx] at h2
      rcases hoq with ⟨h3, _⟩ | ⟨o1, q1, h3, h4, h5⟩
      · rw [h3] at h1; simp at h1
      · rw [h3] at h1; rw [h4] at h2
        cases h1; cases h2; exact h5
    · rw [gy y hy] at h1; rw [dy y hy] at h2
      exact (h.ok y o q h1 h2).frame (fun a ha => frame y o a hy h1 ha)
  · intro y z oy oz a h1 h2 h3 h4
    change (s.vars.set x o')[y]? = _ at h1
    change (s.vars.set x o')[z]? = _ at h2
    by_cases hy : y = x
    · by_cases hz : z = x
      · rw [hy, hz]
      · subst hy
        rw [gx] at h1; rw [gy z hz] at h2
        exact absurd h4 (hap oy a z oz (by simpa using h1) h3 hz h2)
    · by_cases hz : z = x
      · subst hz
        rw [gx] at h2; rw [gy y hy] at h1
        exact absurd h3 (hap oz a y oy (by simpa using h2) h4 hy h1)
      · rw [gy y hy] at h1; rw [gy z hz] at h2
        exact h.apart y z oy oz a h1 h2 h3 h4
  · intro a slots ha
    rcases hown a slots ha with ⟨o, h1, h2⟩ | ⟨⟨sl, h1⟩, h2⟩
    · exact ⟨x, o, by show (s.vars.set x o')[x]? = _; rw [gx, h1], h2⟩
    · obtain ⟨y, o, h3, h4⟩ := h.owned a sl h1
      have hy : y ≠ x := by
        intro e; subst e; exact h2 o h3 h4
      exact ⟨y, o, by show (s.vars.set x o')[y]? = _; rw [gy y hy, h3], h4⟩

/-- A block that is allocated and freed again. -/
theorem CbRel.freed {s : CbMem α} {d : Spec.DequeVars α} (h : CbRel s d) : CbRel ⟨s.heap ++ [none], s.vars⟩ d := by
  refine ⟨h.len, h.dead, ?_, h.apart, ?_⟩
  · intro x o q h1 h2
    refine (h.ok x o q h1 h2).frame ?_
    intro a ha
    have := ((h.ok x o q h1 h2).live ha).1
    exact List.getElem?_append_left this
  · intro a slots ha
    change (s.heap ++ [none])[a]? = _ at ha
    by_cases hlt : a < s.heap.length
    · rw [List.getElem?_append_left hlt] at ha
      exact h.owned a slots ha
    · rw [List.getElem?_append_right (by omega)] at ha
      rcases hk : a - s.heap.length with _ | k
      · rw [hk] at ha; simp at ha
      · rw [hk] at ha; simp at ha

/-- A new variable with a new block. -/
theorem CbRel.fresh {s : CbMem α} {d : Spec.DequeVars α} (h : CbRel s d) {x : Nat} (hx : s.vars[x]? = some none)
    (slots : List (Option α)) (o : CbObj) (q : Spec.Deque α) (ho : o.buf = some s.heap.length) (hl : slots.length = o.cap) (hc : o.cap = q.cap)
    (hr : Repr ⟨slots, o.first, o.size⟩ q.items) :
    CbRel ⟨s.heap ++ [some slots], s.vars.set x (some o)⟩ (d.set x (some q)) := by
  have hlt : x < s.vars.length := (List.getElem?_eq_some_iff.mp hx).1
  refine h.update x hlt _ _ _ (Or.inr ⟨o, q, rfl, rfl, Or.inr ⟨_, slots, ho, by simp, hl, hc, hr⟩⟩) ?_ ?_ ?_
  · intro y oy a _ hy ha
    obtain ⟨qy, _, hq⟩ := h.okAt hy
    exact List.getElem?_append_left (hq.live ha).1
  · intro o' a y oy h1 h2 _ hy h3
    cases h1
    rw [ho] at h2; cases h2
    obtain ⟨qy, _, hq⟩ := h.okAt hy
    have := (hq.live h3).1
    omega
  · intro a sl ha
    by_cases hlt : a < s.heap.length
    · rw [List.getElem?_append_left hlt] at ha
      refine Or.inr ⟨⟨sl, ha⟩, ?_⟩
      intro ox hox; rw [hx] at hox; simp at hox
    · rw [List.getElem?_append_right (by omega)] at ha
      have : a - s.heap.length = 0 := by
        rcases hk : a - s.heap.length with _ | k
        · rfl
        · rw [hk] at ha; simp at ha
      left
      exact ⟨o, rfl, by rw [ho]; congr 1; omega⟩

/-- An operation in place. -/
theorem CbRel.store {s : CbMem α} {d : Spec.DequeVars α} (h : CbRel s d) {x : Nat} {o : CbObj} {q : Spec.Deque α} (hx : s.vars[x]? = some (some o))
    (hok : CbVarOk s.heap o q) (c : CircularBuffer α) (e : Spec.Deque α) (hr : Repr c e.items) (hl : c.slots.length = e.cap) (hc : e.cap = q.cap) :
    CbRel ⟨(cbStore s.heap o c).1, s.vars.set x (some (cbStore s.heap o c).2)⟩ (d.set x (some e)) := by
  have hlt : x < s.vars.length := (List.getElem?_eq_some_iff.mp hx).1
  rcases hok with ⟨h0, hc0, hi0⟩ | ⟨a, slots, h1, h2, h3, h4, h5⟩
  · subst h0
    have hz : c.slots.length = 0 := by omega
    have hi : e.items = [] := by
      have := hr.le_cap
      exact List.length_eq_zero_iff.mp (by omega)
    have hf : c.first = 0 := by have := hr.first_lt; omega
    have hs : c.size = 0 := by rw [hr.size_eq, hi]; rfl
    have : cbStore s.heap cbNull c = (s.heap, cbNull) := by simp [cbStore, cbNull, hf, hs]
    rw [this]
    refine h.update x hlt _ _ _ (Or.inr ⟨cbNull, e, rfl, rfl, Or.inl ⟨rfl, by omega, hi⟩⟩) (fun _ _ _ _ _ _ => rfl) ?_ ?_
    · intro o' a y oy h1 h2; cases h1; simp [cbNull] at h2
    · intro a sl ha
      refine Or.inr ⟨⟨sl, ha⟩, ?_⟩
      intro ox hox; rw [hx] at hox; cases hox; simp [cbNull]
  · have ha : a < s.heap.length := (List.getElem?_eq_some_iff.mp h2).1
    have : cbStore s.heap o c = (s.heap.set a (some c.slots), { o with first := c.first, size := c.size }) := by simp [cbStore, h1]
    rw [this]
    refine h.update x hlt _ _ _ (Or.inr ⟨_, e, rfl, rfl, Or.inr ⟨a, c.slots, h1, by simp [ha], by show c.slots.length = o.cap; omega, by show o.cap = e.cap; omega, hr⟩⟩) ?_ ?_ ?_
    · intro y oy a' hy hvy hb
      have : a ≠ a' := by
        intro e'; subst e'
        exact hy (h.apart y x oy o a hvy hx hb h1)
      simp [this]
    · intro o' a' y oy h6 h7 hy hvy h8
      cases h6
      have : a = a' := by simpa [h1] using h7
      subst this
      exact hy (h.apart y x oy o a hvy hx h8 h1)
    · intro a' sl ha'
      by_cases e' : a = a'
      · subst e'; exact Or.inl ⟨_, rfl, h1⟩
      · have e2 : (s.heap.set a (some c.slots))[a']? = s.heap[a']? := by simp [e']
        rw [e2] at ha'
        refine Or.inr ⟨⟨sl, ha'⟩, ?_⟩
        intro ox hox; rw [hx] at hox; cases hox
        rw [h1]; simpa using e'

/-- A variable is destroyed. -/
theorem CbRel.destroyed {s : CbMem α} {d : Spec.DequeVars α} (h : CbRel s d) {x : Nat} {o : CbObj} (hx : s.vars[x]? = some (some o)) :
    ∃ heap', cbDestroy s.heap o = some heap' ∧ CbRel ⟨heap', s.vars.set x none⟩ (d.set x none) := by
  obtain ⟨q, _, hok⟩ := h.okAt hx
  obtain ⟨heap', h1, _, h3, h4⟩ := cbDestroy_ok hok
  have hlt : x < s.vars.length := (List.getElem?_eq_some_iff.mp hx).1
  refine ⟨heap', h1, h.update x hlt _ _ _ (Or.inl ⟨rfl, rfl⟩) ?_ ?_ ?_⟩
  · intro y oy a hy hvy hb
    refine h4 a ?_
    intro e
    exact hy (h.apart y x oy o a hvy hx hb e)
  · intro o' a y oy h6; simp at h6
  · intro a sl ha
    by_cases e : o.buf = some a
    · rw [h3 a e] at ha; simp at ha
    · rw [h4 a e] at ha
      refine Or.inr ⟨⟨sl, ha⟩, ?_⟩
      intro ox hox; rw [hx] at hox; cases hox; exact e

/-- A variable takes over what another one holds. -/
theorem CbRel.moved {s : CbMem α} {d : Spec.DequeVars α} (h : CbRel s d) {x y : Nat} {o : CbObj} {q : Spec.Deque α} (hx : s.vars[x]? = some none)
    (hy : s.vars[y]? = some (some o)) (hq : d[y]? = some (some q)) :
    CbRel ⟨s.heap, (s.vars.set y (some cbNull)).set x (some o)⟩ ((d.set y (some ⟨0, []⟩)).set x (some q)) := by
  have hxl : x < s.vars.length := (List.getElem?_eq_some_iff.mp hx).1
  have hyl : y < s.vars.length := (List.getElem?_eq_some_iff.mp hy).1
  have hxd : x < d.length := by rw [← h.len]; exact hxl
  have hyd : y < d.length := by rw [← h.len]; exact hyl
  have hne : x ≠ y := by intro e; subst e; rw [hx] at hy; simp at hy
  have gx : ((s.vars.set y (some cbNull)).set x (some o))[x]? = some (some o) := by simp [hxl]
  have gy : ((s.vars.set y (some cbNull)).set x (some o))[y]? = some (some cbNull) := by simp [hyl, hne]
  have gz : ∀ z : Nat, z ≠ x → z ≠ y → ((s.vars.set y (some cbNull)).set x (some o))[z]? = s.vars[z]? := by
    intro z h1 h2; simp [Ne.symm h1, Ne.symm h2]
  have dx : ((d.set y (some ⟨0, []⟩)).set x (some q))[x]? = some (some q) := by simp [hxd]
  have dy : ((d.set y (some ⟨0, []⟩)).set x (some q))[y]? = some (some ⟨0, []⟩) := by simp [hyd, hne]
  have dz : ∀ z : Nat, z ≠ x → z ≠ y → ((d.set y (some ⟨0, []⟩)).set x (some q))[z]? = d[z]? := by
    intro z h1 h2; simp [Ne.symm h1, Ne.symm h2]
  have hok := h.ok y o q hy hq
  generalize hV : (s.vars.set y (some cbNull)).set x (some o) = V at *
  generalize hD : (d.set y (some ⟨0, []⟩)).set x (some q) = D at *
  have hback : ∀ (z : Nat) oz a, V[z]? = some (some oz) → oz.buf = some a → s.vars[if z = x then y else z]? = some (some oz) ∧ z ≠ y := by
    intro z oz a h1 h2
    by_cases e1 : z = x
    · subst e1; rw [gx] at h1; cases h1
      simp [hy, hne]
    · by_cases e2 : z = y
      · subst e2; rw [gy] at h1; cases h1; simp [cbNull] at h2
      · rw [gz z e1 e2] at h1; simp [e1, e2, h1]
  constructor
  · show V.length = _
    rw [← hV, ← hD]; simp [h.len]
  · intro z
    show V[z]? = _ ↔ _
    by_cases e1 : z = x
    · subst e1; rw [gx, dx]; simp
    · by_cases e2 : z = y
      · subst e2; rw [gy, dy]; simp
      · rw [gz z e1 e2, dz z e1 e2]; exact h.dead z
  · intro z oz qz h1 h2
    change V[z]? = _ at h1
    by_cases e1 : z = x
    · subst e1; rw [gx] at h1; rw [dx] at h2; cases h1; cases h2; exact hok
    · by_cases e2 : z = y
      · subst e2; rw [gy] at h1; rw [dy] at h2; cases h1; cases h2; exact Or.inl ⟨rfl, rfl, rfl⟩
      · rw [gz z e1 e2] at h1; rw [dz z e1 e2] at h2; exact h.ok z oz qz h1 h2
  · intro z w oz ow a h1 h2 h3 h4
    obtain ⟨b1, c1⟩ := hback z oz a h1 h3
    obtain ⟨b2, c2⟩ := hback w ow a h2 h4
    have := h.apart _ _ oz ow a b1 b2 h3 h4
    by_cases e1 : z = x <;> by_cases e2 : w = x <;> simp [e1, e2] at this ⊢
    · exact absurd this.symm c2
    · exact absurd this c1
    · exact this
  · intro a slots ha
    obtain ⟨z, oz, h1, h2⟩ := h.owned a slots ha
    by_cases e2 : z = y
    · subst e2; rw [hy] at h1; cases h1
      exact ⟨x, o, gx, h2⟩
    · have e1 : z ≠ x := by intro e; subst e; rw [hx] at h1; simp at h1
      exact ⟨z, oz, by show V[z]? = _; rw [gz z e1 e2, h1], h2⟩

/-- Two variables are swapped. -/
theorem CbRel.swapped {s : CbMem α} {d : Spec.DequeVars α} (h : CbRel s d) {x y : Nat} {ox oy : CbObj} {qx qy : Spec.Deque α} (hx : s.vars[x]? = some (some ox))
    (hy : s.vars[y]? = some (some oy)) (hqx : d[x]? = some (some qx)) (hqy : d[y]? = some (some qy)) :
    CbRel ⟨s.heap, (s.vars.set x (some oy)).set y (some ox)⟩ ((d.set x (some qy)).set y (some qx)) := by
  have hxl : x < s.vars.length := (List.getElem?_eq_some_iff.mp hx).1
  have hyl : y < s.vars.length := (List.getElem?_eq_some_iff.mp hy).1
  have hxd : x < d.length := by rw [← h.len]; exact hxl
  have hyd : y < d.length := by rw [← h.len]; exact hyl
  have hV : ∀ z : Nat, ((s.vars.set x (some oy)).set y (some ox))[z]? = s.vars[if z = x then y else if z = y then x else z]? := by
    intro z
    by_cases e2 : z = y
    · subst e2
      by_cases e1 : z = x
      · subst e1; rw [hx] at hy; cases hy; rw [if_pos rfl, hx]; simp [hxl]
      · simp [hyl, e1, hx]
    · by_cases e1 : z = x
      · subst e1; simp [hxl, Ne.symm e2, hy]
      · simp [e1, e2, Ne.symm e1, Ne.symm e2]
  have hD : ∀ z : Nat, ((d.set x (some qy)).set y (some qx))[z]? = d[if z = x then y else if z = y then x else z]? := by
    intro z
    by_cases e2 : z = y
    · subst e2
      by_cases e1 : z = x
      · subst e1; rw [hqx] at hqy; cases hqy; rw [if_pos rfl, hqx]; simp [hxd]
      · simp [hyd, e1, hqx]
    · by_cases e1 : z = x
      · subst e1; simp [hxd, Ne.symm e2, hqy]
      · simp [e1, e2, Ne.symm e1, Ne.symm e2]
  constructor
  · simp [h.len]
  · intro z
    show ((s.vars.set x (some oy)).set y (some ox))[z]? = _ ↔ _
    rw [hV, hD]; exact h.dead _
  · intro z oz qz h1 h2
    change ((s.vars.set x (some oy)).set y (some ox))[z]? = _ at h1
    rw [hV] at h1; rw [hD] at h2
    exact h.ok _ oz qz h1 h2
  · intro z w oz ow a h1 h2 h3 h4
    change ((s.vars.set x (some oy)).set y (some ox))[z]? = _ at h1
    change ((s.vars.set x (some oy)).set y (some ox))[w]? = _ at h2
    rw [hV] at h1 h2
    have := h.apart _ _ oz ow a h1 h2 h3 h4
    split_ifs at this <;> simp_all
  · intro a slots ha
    obtain ⟨z, oz, h1, h2⟩ := h.owned a slots ha
    refine ⟨if z = x then y else if z = y then x else z, oz, ?_, h2⟩
    show ((s.vars.set x (some oy)).set y (some ox))[_]? = _
    rw [hV, ← h1]
    congr 1
    split_ifs <;> simp_all

theorem set_same {β : Type} {l : List β} {x : Nat} {v : β} (h : l[x]? = some v) : l.set x v = l := by
  apply List.ext_getElem?
  intro i
  rw [List.getElem?_set]
  split
  · rename_i e; subst e
    rw [if_pos (List.getElem?_eq_some_iff.mp h).1, h]
  · rfl

/-- A variable gets a new block and its old one is freed. -/
theorem CbRel.replaced {s : CbMem α} {d : Spec.DequeVars α} (h : CbRel s d) {x : Nat} {o : CbObj} (hx : s.vars[x]? = some (some o))
    (slots : List (Option α)) (o' : CbObj) (q' : Spec.Deque α) (ho : o'.buf = some s.heap.length) (hl : slots.length = o'.cap) (hc : o'.cap = q'.cap)
    (hr : Repr ⟨slots, o'.first, o'.size⟩ q'.items) :
    ∃ heap', cbDestroy (s.heap ++ [some slots]) o = some heap' ∧ CbRel ⟨heap', s.vars.set x (some o')⟩ (d.set x (some q')) := by
  obtain ⟨q, _, hok⟩ := h.okAt hx
  have hfr : ∀ a, o.buf = some a → (s.heap ++ [some slots])[a]? = s.heap[a]? := fun a ha => List.getElem?_append_left (hok.live ha).1
  obtain ⟨heap', h1, h2, h3, h4⟩ := cbDestroy_ok (hok.frame hfr)
  have hlt : x < s.vars.length := (List.getElem?_eq_some_iff.mp hx).1
  have hnew : heap'[s.heap.length]? = some (some slots) := by
    rw [h4 _ (fun e => by have := (hok.live e).1; omega)]; simp
  refine ⟨heap', h1, h.update x hlt _ _ _ (Or.inr ⟨o', q', rfl, rfl, Or.inr ⟨_, slots, ho, hnew, hl, hc, hr⟩⟩) ?_ ?_ ?_⟩
  · intro y oy a hy hvy hb
    obtain ⟨qy, _, hq⟩ := h.okAt hvy
    rw [h4 a (fun e => hy (h.apart y x oy o a hvy hx hb e)), List.getElem?_append_left (hq.live hb).1]
  · intro o1 a y oy h6 h7 hy hvy h8
    cases h6
    rw [ho] at h7; cases h7
    obtain ⟨qy, _, hq⟩ := h.okAt hvy
    have := (hq.live h8).1
    omega
  · intro a sl ha
    by_cases e : o.buf = some a
    · rw [h3 a e] at ha; simp at ha
    · rw [h4 a e] at ha
      by_cases hlt : a < s.heap.length
      · rw [List.getElem?_append_left hlt] at ha
        refine Or.inr ⟨⟨sl, ha⟩, ?_⟩
        intro ox hox; rw [hx] at hox; cases hox; exact e
      · rw [List.getElem?_append_right (by omega)] at ha
        have : a - s.heap.length = 0 := by
          rcases hk : a - s.heap.length with _ | k
          · rfl
          · rw [hk] at ha; simp at ha
        left
        exact ⟨o', rfl, by rw [ho]; congr 1; omega⟩

/-- What one call does. -/
def CbStepOk (nothrowMove : Bool) (s : CbMem α) (d : Spec.DequeVars α) (limit : Option Nat) (op : CbOp α) : Prop :=
  (d.call op = none ∧ cbStep nothrowMove s limit op = .undefined) ∨
  ∃ d', d.call op = some d' ∧
    ((Spec.DequeVars.throws limit (d.cost nothrowMove op) = true ∧ ∃ s', cbStep nothrowMove s limit op = .threw s' ∧ CbRel s' d) ∨
     (Spec.DequeVars.throws limit (d.cost nothrowMove op) = false ∧ ∃ s', cbStep nothrowMove s limit op = .returned s' ∧ CbRel s' d'))

theorem cbInPlace_ok {s : CbMem α} {d : Spec.DequeVars α} (h : CbRel s d) {x : Nat} {o : CbObj} {q : Spec.Deque α} (hx : s.vars[x]? = some (some o))
    (hok : CbVarOk s.heap o q) (op : CircularBuffer.Op α) (hop : ∀ e, q.step op = some e → e.cap = q.cap) :
    (q.step op = none ∧ cbInPlace s x o op = .undefined) ∨
    ∃ e, q.step op = some e ∧ ∃ s', cbInPlace s x o op = .returned s' ∧ CbRel s' (d.set x (some e)) := by
  obtain ⟨b, hb, hr, hl, _, _⟩ := hok.view
  rcases step_refines hr hl op with ⟨h1, h2⟩ | ⟨c, e, h1, h2, h3, h4⟩
  · left
    exact ⟨h2, by simp [cbInPlace, hb, h1]⟩
  · right
    refine ⟨e, h2, _, by simp only [cbInPlace, hb, h1, Option.bind_some] <;> rfl, ?_⟩
    exact h.store hx hok c e h3 h4 (hop e h2)

theorem cbSetCapacity_ok {s : CbMem α} {d : Spec.DequeVars α} (h : CbRel s d) {x : Nat} {o : CbObj} {q : Spec.Deque α} (hx : s.vars[x]? = some (some o))
    (hq : d[x]? = some (some q)) (nm : Bool) (n : Nat) (limit : Option Nat)
    (hsafe : Spec.DequeVars.throws limit (if n = q.cap then 0 else if nm then 1 else 1 + min n q.items.length) = true → limit = some 0) :
    (Spec.DequeVars.throws limit (if n = q.cap then 0 else if nm then 1 else 1 + min n q.items.length) = true ∧ cbSetCapacity nm s.heap o n limit = some (s.heap, o, false)) ∨
    (Spec.DequeVars.throws limit (if n = q.cap then 0 else if nm then 1 else 1 + min n q.items.length) = false ∧ ∃ heap' o', cbSetCapacity nm s.heap o n limit = some (heap', o', true) ∧
      CbRel ⟨heap', s.vars.set x (some o')⟩ (d.set x (some ⟨n, q.items.take n⟩))) := by
  have hok := h.ok x o q hx hq
  have hcap := hok.cap
  have hsz := hok.size
  have hle := hok.le
  unfold cbSetCapacity
  rw [hcap]
  by_cases hn : n = q.cap
  · right
    rw [if_pos hn, throws_zero, if_pos hn]
    refine ⟨rfl, s.heap, o, rfl, ?_⟩
    have e1 : q.items.take n = q.items := List.take_of_length_le (by omega)
    rw [e1, set_same hx]
    have e2 : (⟨n, q.items⟩ : Spec.Deque α) = q := by rw [hn]
    rw [e2, set_same hq]
    exact h
  · rw [if_neg hn] at hsafe ⊢
    rw [if_neg hn]
    have e0 : (if nm then 1 else 1 + min n q.items.length) = (if nm then 0 else min n q.items.length) + 1 := by split <;> omega
    rw [e0] at hsafe ⊢
    rcases hsp : cbSpend limit with _ | l
    · exact Or.inl ⟨(cbSpend_none _ hsp).1, rfl⟩
    · rw [cbSpend_some _ hsp] at hsafe ⊢
      have hnt : Spec.DequeVars.throws l (if nm then 0 else min n q.items.length) = false := by
        by_contra hh
        have := hsafe (by simpa using hh)
        rw [this] at hsp; simp [cbSpend] at hsp
      obtain ⟨b, hb, hr, hl, hl2, hbs⟩ := hok.view
      have hm : (List.range (min n o.size)).mapM b.get = some (q.items.take n) := by
        refine ListAux.mapM_range_eq_some _ _ _ (by rw [hsz, List.length_take]) ?_
        intro i hi
        rw [hr.get]
        rw [List.length_take] at hi
        rw [List.getElem_take, List.getElem?_eq_getElem (by omega)]
      have hlen : (q.items.take n).length = min n q.items.length := List.length_take
      have hthr : Spec.DequeVars.throws (if nm then none else l) (min n q.items.length) = false := by
        cases nm
        · simpa using hnt
        · simp [Spec.DequeVars.throws]
      right
      refine ⟨hnt, ?_⟩
      have hrp : Repr ⟨(q.items.take n).map some ++ List.replicate (n - min n q.items.length) none, 0, min n o.size⟩ (q.items.take n) := by
        rw [hsz]; exact repr_fresh n _ (by omega) _ hlen.symm
      obtain ⟨heap', h1, h2⟩ := h.replaced hx ((q.items.take n).map some ++ List.replicate (n - min n q.items.length) none)
        ⟨some s.heap.length, 0, min n o.size, n⟩ ⟨n, q.items.take n⟩ rfl (by simp) rfl hrp
      refine ⟨heap', _, ?_, h2⟩
      simp only [hb, hm, Option.bind_eq_bind, Option.bind_some, cbFill_new s.heap n _ _ (show (q.items.take n).length ≤ n by omega), hlen, hthr]
      simp only [Bool.false_eq_true, if_false, Option.bind_some, if_true, h1, Option.pure_def]

theorem cbReset_ok {s : CbMem α} {d : Spec.DequeVars α} (h : CbRel s d) {x : Nat} {o : CbObj} {q : Spec.Deque α} (hx : s.vars[x]? = some (some o))
    (hq : d[x]? = some (some q)) (n : Nat) (limit : Option Nat)
    (hsafe : Spec.DequeVars.throws limit (if n = q.cap then 0 else 1) = false) :
    ∃ heap' o', cbReset s.heap o n limit = some (heap', o', true) ∧ CbRel ⟨heap', s.vars.set x (some o')⟩ (d.set x (some ⟨n, []⟩)) := by
  have hok := h.ok x o q hx hq
  have hcap := hok.cap
  obtain ⟨b, hb, hr, hl, hl2, hbs⟩ := hok.view
  obtain ⟨c, hc, hcl, hcr⟩ := hr.clear
  unfold cbReset
  simp only [hb, hc, Option.bind_eq_bind, Option.bind_some]
  have hcap2 : (cbStore s.heap o c).2.cap = q.cap := by
    unfold cbStore; split <;> exact hcap
  have hbuf2 : (cbStore s.heap o c).2.buf = o.buf := by
    unfold cbStore; split <;> rfl
  have hz : c.first = 0 ∧ c.size = 0 := by
    unfold CircularBuffer.clear at hc
    obtain ⟨b', _, h2⟩ := Option.bind_eq_some_iff.mp hc
    simp only [Option.pure_def, Option.some.injEq] at h2
    rw [← h2]; exact ⟨rfl, rfl⟩
  by_cases hn : n = q.cap
  · rw [if_pos (by rw [hcap2]; exact hn)]
    refine ⟨_, _, rfl, ?_⟩
    exact h.store hx hok c ⟨n, []⟩ hcr (by show c.slots.length = n; omega) hn
  · rw [if_neg (by rw [hcap2]; exact hn), hbuf2, hcap2]
    rw [if_neg hn] at hsafe
    obtain ⟨heap', h1, h2⟩ := h.destroyed hx
    have hd : (match o.buf with
      | none => some (cbStore s.heap o c).1
      | some a => cbDeallocate (cbStore s.heap o c).1 a q.cap) = some heap' := by
      unfold cbDestroy at h1
      unfold cbStore
      rcases hbf : o.buf with _ | a
      · simp only [hbf] at h1 ⊢
        exact h1
      · simp only [hbf, hb, hc, Option.bind_eq_bind, Option.bind_some, hcap] at h1 ⊢
        exact h1
    have hgoal : ∀ k : CbHeap α → Option (CbHeap α × CbObj × Bool), (match o.buf with
        | none => k (cbStore s.heap o c).1
        | some a => (cbDeallocate (cbStore s.heap o c).1 a q.cap).bind k) = k heap' := by
      intro k
      rcases hbf : o.buf with _ | a
      · simp only [hbf, Option.some.injEq] at hd ⊢
        rw [hd]
      · simp only [hbf] at hd ⊢
        rw [hd]; rfl
    have hgoal' := hgoal (fun h => match cbSpend limit with
      | none => some (h, (cbStore s.heap o c).2, false)
      | some _ => some (cbAllocate h n, ⟨some h.length, (cbStore s.heap o c).2.first, (cbStore s.heap o c).2.size, n⟩, true))
    rcases hsp : cbSpend limit with _ | l
    · have := (cbSpend_none 0 hsp).1
      rw [this] at hsafe; simp at hsafe
    · simp only [hsp] at hgoal'
      refine ⟨_, _, hgoal', ?_⟩
      have hlt : x < s.vars.length := (List.getElem?_eq_some_iff.mp hx).1
      have h3 := h2.fresh (x := x) (by show (s.vars.set x none)[x]? = _; simp [hlt]) (List.replicate n none)
        { (cbStore s.heap o c).2 with buf := some heap'.length, cap := n } ⟨n, []⟩ rfl (by simp) rfl (by
          have e : (cbStore s.heap o c).2.first = 0 ∧ (cbStore s.heap o c).2.size = 0 := by
            unfold cbStore; split <;> exact hz
          show Repr ⟨_, (cbStore s.heap o c).2.first, (cbStore s.heap o c).2.size⟩ []
          rw [e.1, e.2]
          exact repr_init n)
      simp only [List.set_set] at h3
      exact h3

theorem cbCopy_ok {heap : CbHeap α} {o : CbObj} {q : Spec.Deque α} (hok : CbVarOk heap o q) (limit : Option Nat) :
    (Spec.DequeVars.throws limit (1 + q.items.length) = true ∧
      (cbCopy heap o limit = some (heap, none) ∨ cbCopy heap o limit = some (heap ++ [none], none))) ∨
    (Spec.DequeVars.throws limit (1 + q.items.length) = false ∧
      ∃ slots, cbCopy heap o limit = some (heap ++ [some slots], some ⟨some heap.length, 0, q.items.length, q.cap⟩) ∧
        slots.length = q.cap ∧ Repr ⟨slots, 0, q.items.length⟩ q.items) := by
  obtain ⟨b, hb, hr, hl, hl2, hbs⟩ := hok.view
  have hle := hok.le
  have := cbRange_ok heap q.cap q.items limit
  rw [Nat.min_eq_right hle, Nat.sub_eq_zero_of_le hle, List.drop_zero] at this
  unfold cbCopy
  simp only [hb, hr.contents, Option.bind_eq_bind, Option.bind_some, hok.cap]
  exact this

theorem cbStep_ok (nm : Bool) {s : CbMem α} {d : Spec.DequeVars α} (h : CbRel s d) (limit : Option Nat) (op : CbOp α) (hs : d.Safe nm limit op) :
    CbStepOk nm s d limit op := by
  unfold CbStepOk
  cases op with
  | default x =>
    rcases h.cases x with ⟨h1, h2⟩ | ⟨h1, h2⟩ | ⟨o, q, h1, h2, h3⟩
    · left; simp [Spec.DequeVars.call, cbStep, h1, h2]
    · right
      refine ⟨_, by simp only [Spec.DequeVars.call, h2] <;> rfl, Or.inr ⟨throws_zero _, _, by simp only [cbStep, h1] <;> rfl, ?_⟩⟩
      refine h.update x (List.getElem?_eq_some_iff.mp h1).1 _ _ _ (Or.inr ⟨_, _, rfl, rfl, Or.inl ⟨rfl, rfl, rfl⟩⟩) (fun _ _ _ _ _ _ => rfl) ?_ ?_
      · intro o' a y oy e1 e2; cases e1; simp [cbNull] at e2
      · intro a sl ha
        refine Or.inr ⟨⟨sl, ha⟩, ?_⟩
        intro ox hox; rw [h1] at hox; simp at hox
    · left; simp [Spec.DequeVars.call, cbStep, h1, h2]
  | sized x n =>
    rcases h.cases x with ⟨h1, h2⟩ | ⟨h1, h2⟩ | ⟨o, q, h1, h2, h3⟩
    · left; simp [Spec.DequeVars.call, cbStep, h1, h2]
    · right
      refine ⟨_, by simp only [Spec.DequeVars.call, h2] <;> rfl, ?_⟩
      rcases hsp : cbSpend limit with _ | l
      · left
        exact ⟨(cbSpend_none 0 hsp).1, _, by simp only [cbStep, h1, cbSized, hsp] <;> rfl, h⟩
      · right
        refine ⟨(cbSpend_some 0 hsp).trans (throws_zero _), _, by simp only [cbStep, h1, cbSized, hsp] <;> rfl, ?_⟩
        exact h.fresh h1 (List.replicate n none) ⟨some s.heap.length, 0, 0, n⟩ ⟨n, []⟩ rfl (by simp) rfl (repr_init n)
    · left; simp [Spec.DequeVars.call, cbStep, h1, h2]
  | range x n xs =>
    rcases h.cases x with ⟨h1, h2⟩ | ⟨h1, h2⟩ | ⟨o, q, h1, h2, h3⟩
    · left; simp [Spec.DequeVars.call, cbStep, h1, h2]
    · right
      refine ⟨_, by simp only [Spec.DequeVars.call, h2] <;> rfl, ?_⟩
      rcases cbRange_ok s.heap n xs limit with ⟨e1, e2 | e2⟩ | ⟨e1, slots, e2, e3, e4⟩
      · exact Or.inl ⟨e1, _, by simp only [cbStep, h1, e2] <;> rfl, h⟩
      · exact Or.inl ⟨e1, _, by simp only [cbStep, h1, e2] <;> rfl, h.freed⟩
      · exact Or.inr ⟨e1, _, by simp only [cbStep, h1, e2] <;> rfl, h.fresh h1 slots _ ⟨n, _⟩ rfl e3 rfl e4⟩
    · left; simp [Spec.DequeVars.call, cbStep, h1, h2]
  | copy x y =>
    rcases h.cases x with ⟨h1, h2⟩ | ⟨h1, h2⟩ | ⟨o, q, h1, h2, h3⟩
    · left; simp [Spec.DequeVars.call, cbStep, h1, h2]
    · rcases h.cases y with ⟨g1, g2⟩ | ⟨g1, g2⟩ | ⟨o, q, g1, g2, g3⟩
      · left; simp [Spec.DequeVars.call, cbStep, h1, h2, g1, g2]
      · left; simp [Spec.DequeVars.call, cbStep, h1, h2, g1, g2]
      · right
        refine ⟨_, by simp only [Spec.DequeVars.call, h2, g2] <;> rfl, ?_⟩
        simp only [Spec.DequeVars.cost, g2]
        rcases cbCopy_ok g3 limit with ⟨e1, e2 | e2⟩ | ⟨e1, slots, e2, e3, e4⟩
        · exact Or.inl ⟨e1, _, by simp only [cbStep, h1, g1, e2] <;> rfl, h⟩
        · exact Or.inl ⟨e1, _, by simp only [cbStep, h1, g1, e2] <;> rfl, h.freed⟩
        · exact Or.inr ⟨e1, _, by simp only [cbStep, h1, g1, e2] <;> rfl, h.fresh h1 slots _ q rfl e3 rfl e4⟩
    · left; simp [Spec.DequeVars.call, cbStep, h1, h2]
  | move x y =>
    rcases h.cases x with ⟨h1, h2⟩ | ⟨h1, h2⟩ | ⟨o, q, h1, h2, h3⟩
    · left; simp [Spec.DequeVars.call, cbStep, h1, h2]
    · rcases h.cases y with ⟨g1, g2⟩ | ⟨g1, g2⟩ | ⟨o, q, g1, g2, g3⟩
      · left; simp [Spec.DequeVars.call, cbStep, h1, h2, g1, g2]
      · left; simp [Spec.DequeVars.call, cbStep, h1, h2, g1, g2]
      · right
        exact ⟨_, by simp only [Spec.DequeVars.call, h2, g2] <;> rfl, Or.inr ⟨throws_zero _, _, by simp only [cbStep, h1, g1] <;> rfl, h.moved h1 g1 g2⟩⟩
    · left; simp [Spec.DequeVars.call, cbStep, h1, h2]
  | destroy x =>
    rcases h.cases x with ⟨h1, h2⟩ | ⟨h1, h2⟩ | ⟨o, q, h1, h2, h3⟩
    · left; simp [Spec.DequeVars.call, cbStep, h1, h2]
    · left; simp [Spec.DequeVars.call, cbStep, h1, h2]
    · right
      obtain ⟨heap', e1, e2⟩ := h.destroyed h1
      exact ⟨_, by simp only [Spec.DequeVars.call, h2] <;> rfl, Or.inr ⟨throws_zero _, _, by simp only [cbStep, h1, e1] <;> rfl, e2⟩⟩
  | assignCopy x y =>
    rcases h.cases x with ⟨h1, h2⟩ | ⟨h1, h2⟩ | ⟨ox, qx, h1, h2, h3⟩
    · left; simp [Spec.DequeVars.call, cbStep, h1, h2]
    · left; simp [Spec.DequeVars.call, cbStep, h1, h2]
    · rcases h.cases y with ⟨g1, g2⟩ | ⟨g1, g2⟩ | ⟨o, q, g1, g2, g3⟩
      · left; simp [Spec.DequeVars.call, cbStep, h1, h2, g1, g2]
      · left; simp [Spec.DequeVars.call, cbStep, h1, h2, g1, g2]
      · right
        refine ⟨_, by simp only [Spec.DequeVars.call, h2, g2] <;> rfl, ?_⟩
        simp only [Spec.DequeVars.cost, g2]
        rcases cbCopy_ok g3 limit with ⟨e1, e2 | e2⟩ | ⟨e1, slots, e2, e3, e4⟩
        · exact Or.inl ⟨e1, _, by simp only [cbStep, h1, g1, e2] <;> rfl, h⟩
        · exact Or.inl ⟨e1, _, by simp only [cbStep, h1, g1, e2] <;> rfl, h.freed⟩
        · obtain ⟨heap', f1, f2⟩ := h.replaced h1 slots ⟨some s.heap.length, 0, q.items.length, q.cap⟩ q rfl e3 rfl e4
          exact Or.inr ⟨e1, _, by simp only [cbStep, h1, g1, e2, f1] <;> rfl, f2⟩
  | assignMove x y =>
    rcases h.cases y with ⟨g1, g2⟩ | ⟨g1, g2⟩ | ⟨o, q, g1, g2, g3⟩
    · left; refine ⟨?_, by simp [cbStep, g1]⟩
      simp only [Spec.DequeVars.call, g2]
      split <;> simp_all
    · left; refine ⟨?_, by simp [cbStep, g1]⟩
      simp only [Spec.DequeVars.call, g2]
      split <;> simp_all
    · by_cases hxy : x = y
      · subst hxy
        right
        have hlt : x < s.vars.length := (List.getElem?_eq_some_iff.mp g1).1
        refine ⟨_, by simp only [Spec.DequeVars.call, g2, if_true] <;> rfl, Or.inr ⟨throws_zero _, _, by
          simp only [cbStep, g1, List.getElem?_set_self hlt]
          simp only [cbDestroy, cbNull, List.set_set, set_same g1] <;> rfl, h⟩⟩
      · have gx : (s.vars.set y (some cbNull))[x]? = s.vars[x]? := by simp [Ne.symm hxy]
        rcases h.cases x with ⟨h1, h2⟩ | ⟨h1, h2⟩ | ⟨ox, qx, h1, h2, h3⟩
        · left; simp only [Spec.DequeVars.call, cbStep, h2, g1, gx, h1, and_self]
        · left; simp only [Spec.DequeVars.call, cbStep, h2, g1, gx, h1, and_self]
        · right
          obtain ⟨heap', e1, e2⟩ := h.destroyed h1
          have hlt : x < s.vars.length := (List.getElem?_eq_some_iff.mp h1).1
          have e3 := e2.moved (x := x) (y := y) (o := o) (q := q) (by show (s.vars.set x none)[x]? = _; simp [hlt]) (by show (s.vars.set x none)[y]? = _; simp [hxy, g1])
            (by simp [hxy, g2])
          refine ⟨_, by simp only [Spec.DequeVars.call, g2, h2, if_neg hxy] <;> rfl, Or.inr ⟨throws_zero _, _, by
            simp only [cbStep, g1, gx, h1, e1] <;> rfl, ?_⟩⟩
          simp only [List.set_comm _ _ (Ne.symm hxy), List.set_set] at e3 ⊢
          exact e3
  | swap x y =>
    rcases h.cases x with ⟨h1, h2⟩ | ⟨h1, h2⟩ | ⟨ox, qx, h1, h2, h3⟩
    · left; simp [Spec.DequeVars.call, cbStep, h1, h2]
    · left; simp [Spec.DequeVars.call, cbStep, h1, h2]
    · rcases h.cases y with ⟨g1, g2⟩ | ⟨g1, g2⟩ | ⟨o, q, g1, g2, g3⟩
      · left; simp [Spec.DequeVars.call, cbStep, h1, h2, g1, g2]
      · left; simp [Spec.DequeVars.call, cbStep, h1, h2, g1, g2]
      · right
        exact ⟨_, by simp only [Spec.DequeVars.call, h2, g2] <;> rfl, Or.inr ⟨throws_zero _, _, by simp only [cbStep, h1, g1] <;> rfl, h.swapped h1 g1 h2 g2⟩⟩
  | call x op =>
    rcases h.cases x with ⟨h1, h2⟩ | ⟨h1, h2⟩ | ⟨o, q, h1, h2, h3⟩
    · left; simp [Spec.DequeVars.call, cbStep, h1, h2]
    · left; simp [Spec.DequeVars.call, cbStep, h1, h2]
    · have hcap := h3.cap
      have plain : ∀ op' : CircularBuffer.Op α, (∀ e, q.step op' = some e → e.cap = q.cap) → d.cost nm (.call x op') = 0 → cbCall nm s limit x o op' = cbInPlace s x o op' →
          CbStepOk nm s d limit (.call x op') := by
        intro op' hc h0 hcall
        rcases cbInPlace_ok h h1 h3 op' hc with ⟨e1, e2⟩ | ⟨e, e1, s', e2, e3⟩
        · left
          exact ⟨by simp only [Spec.DequeVars.call, h2, e1], by simp only [cbStep, h1, hcall, e2]⟩
        · right
          exact ⟨_, by simp only [Spec.DequeVars.call, h2, e1] <;> rfl, Or.inr ⟨by rw [h0, throws_zero], s', by simp only [cbStep, h1, hcall, e2], e3⟩⟩
      cases op with
      | pushBack v =>
        rcases cbInPlace_ok h h1 h3 (.pushBack v) (by intro e he; simp only [Spec.Deque.step] at he; split_ifs at he <;> cases he <;> rfl) with ⟨e1, e2⟩ | ⟨e, e1, s', e2, e3⟩
        · left
          have h0 : q.cap = 0 := by
            simp only [Spec.Deque.step] at e1; split_ifs at e1; assumption
          exact ⟨by simp only [Spec.DequeVars.call, h2, e1], by simp only [cbStep, h1, cbCall, hcap, h0, if_true]⟩
        · right
          have h0 : q.cap ≠ 0 := by
            intro h0; simp only [Spec.Deque.step, if_pos h0] at e1; cases e1
          refine ⟨_, by simp only [Spec.DequeVars.call, h2, e1] <;> rfl, ?_⟩
          simp only [Spec.DequeVars.cost, h2]
          rcases hsp : cbSpend limit with _ | l
          · exact Or.inl ⟨(cbSpend_none 0 hsp).1, s, by simp only [cbStep, h1, cbCall, hcap, if_neg h0, hsp], h⟩
          · exact Or.inr ⟨(cbSpend_some 0 hsp).trans (throws_zero _), s', by simp only [cbStep, h1, cbCall, hcap, if_neg h0, hsp, e2], e3⟩
      | pushFront v =>
        rcases cbInPlace_ok h h1 h3 (.pushFront v) (by intro e he; simp only [Spec.Deque.step] at he; split_ifs at he <;> cases he <;> rfl) with ⟨e1, e2⟩ | ⟨e, e1, s', e2, e3⟩
        · left
          have h0 : q.cap = 0 := by
            simp only [Spec.Deque.step] at e1; split_ifs at e1; assumption
          exact ⟨by simp only [Spec.DequeVars.call, h2, e1], by simp only [cbStep, h1, cbCall, hcap, h0, if_true]⟩
        · right
          have h0 : q.cap ≠ 0 := by
            intro h0; simp only [Spec.Deque.step, if_pos h0] at e1; cases e1
          refine ⟨_, by simp only [Spec.DequeVars.call, h2, e1] <;> rfl, ?_⟩
          simp only [Spec.DequeVars.Safe, Spec.DequeVars.cost, h2] at hs ⊢
          rcases hsp : cbSpend limit with _ | l
          · have ht := (cbSpend_none 0 hsp).1
            rw [Nat.zero_add] at ht
            have hnm : nm = false := by
              cases nm
              · rfl
              · have := hs rfl; rw [ht] at this; simp at this
            exact Or.inl ⟨ht, s, by simp only [cbStep, h1, cbCall, hcap, if_neg h0, hsp, hnm, Bool.false_eq_true, if_false], h⟩
          · exact Or.inr ⟨(cbSpend_some 0 hsp).trans (throws_zero _), s', by simp only [cbStep, h1, cbCall, hcap, if_neg h0, hsp, e2], e3⟩
      | popBack =>
        exact plain .popBack (by intro e he; simp only [Spec.Deque.step] at he; split_ifs at he; cases he; rfl) (by simp only [Spec.DequeVars.cost, h2]) rfl
      | popFront =>
        exact plain .popFront (by intro e he; simp only [Spec.Deque.step] at he; split_ifs at he; cases he; rfl) (by simp only [Spec.DequeVars.cost, h2]) rfl
      | clear =>
        exact plain .clear (by intro e he; simp only [Spec.Deque.step] at he; cases he; rfl) (by simp only [Spec.DequeVars.cost, h2]) rfl
      | setCapacity n =>
        right
        simp only [Spec.DequeVars.Safe, Spec.DequeVars.cost, h2] at hs ⊢
        refine ⟨_, by simp only [Spec.DequeVars.call, h2, Spec.Deque.step] <;> rfl, ?_⟩
        rcases cbSetCapacity_ok h h1 h2 nm n limit hs with ⟨e1, e2⟩ | ⟨e1, heap', o', e2, e3⟩
        · refine Or.inl ⟨e1, _, by simp only [cbStep, h1, cbCall, e2] <;> rfl, ?_⟩
          simp only [set_same h1]
          exact h
        · exact Or.inr ⟨e1, _, by simp only [cbStep, h1, cbCall, e2] <;> rfl, e3⟩
      | reset n =>
        right
        simp only [Spec.DequeVars.Safe, Spec.DequeVars.cost, h2] at hs ⊢
        refine ⟨_, by simp only [Spec.DequeVars.call, h2, Spec.Deque.step] <;> rfl, ?_⟩
        obtain ⟨heap', o', e2, e3⟩ := cbReset_ok h h1 h2 n limit hs
        exact Or.inr ⟨hs, _, by simp only [cbStep, h1, cbCall, e2] <;> rfl, e3⟩

/-- Whole programs. -/
theorem cbRun_ok (nm : Bool) (prog : List (Option Nat × CbOp α)) : ∀ {s : CbMem α} {d : Spec.DequeVars α}, CbRel s d → d.SafeProgram nm prog →
    (d.program nm prog = none ∧ cbRun nm s prog = .undefined) ∨
    ∃ e flags t, d.program nm prog = some (e, flags) ∧ cbRun nm s prog = .returned (t, flags) ∧ CbRel t e := by
  induction prog with
  | nil => intro s d h _; exact Or.inr ⟨d, [], s, rfl, rfl, h⟩
  | cons p prog ih =>
    obtain ⟨limit, op⟩ := p
    intro s d h hs
    obtain ⟨hs1, hs2⟩ := hs
    rcases cbStep_ok nm h limit op hs1 with ⟨e1, e2⟩ | ⟨d', e1, ⟨e2, s', e3, e4⟩ | ⟨e2, s', e3, e4⟩⟩
    · left
      exact ⟨by simp only [Spec.DequeVars.program, e1], by simp only [cbRun, e2]⟩
    · have := hs2 d' e1
      rw [e2, if_pos rfl] at this
      rcases ih e4 this with ⟨f1, f2⟩ | ⟨e, flags, t, f1, f2, f3⟩
      · left
        exact ⟨by simp only [Spec.DequeVars.program, e1, e2, if_true, f1], by simp only [cbRun, e3, f2]⟩
      · right
        exact ⟨e, true :: flags, t, by simp only [Spec.DequeVars.program, e1, e2, if_true, f1], by simp only [cbRun, e3, f2], f3⟩
    · have := hs2 d' e1
      rw [e2, if_neg (by simp)] at this
      rcases ih e4 this with ⟨f1, f2⟩ | ⟨e, flags, t, f1, f2, f3⟩
      · left
        exact ⟨by simp only [Spec.DequeVars.program, e1, e2, Bool.false_eq_true, if_false, f1], by simp only [cbRun, e3, f2]⟩
      · right
        exact ⟨e, false :: flags, t, by simp only [Spec.DequeVars.program, e1, e2, Bool.false_eq_true, if_false, f1], by simp only [cbRun, e3, f2], f3⟩

theorem cbStart_ok (n : Nat) : CbRel (cbStart α n) (List.replicate n none) := by
  constructor
  · simp [cbStart]
  · intro x; simp [cbStart, List.getElem?_replicate]
  · intro x o q h; simp [cbStart, List.getElem?_replicate] at h
  · intro x y ox oy a h; simp [cbStart, List.getElem?_replicate] at h
  · intro a slots h; simp [cbStart] at h

theorem CbRel.observe {s : CbMem α} {d : Spec.DequeVars α} (h : CbRel s d) (x : Nat) :
    cbObserve s x = ((d[x]?).join).map (fun q => (q.cap, q.items)) := by
  unfold cbObserve
  rcases h.cases x with ⟨h1, h2⟩ | ⟨h1, h2⟩ | ⟨o, q, h1, h2, h3⟩
  · simp [h1, h2]
  · simp [h1, h2]
  · obtain ⟨b, hb, hr, _, _, _⟩ := h3.view
    simp [h1, h2, hb, hr.contents, h3.cap]

theorem CbRel.unique_owner {s : CbMem α} {d : Spec.DequeVars α} (h : CbRel s d) (a : Nat) :
    (∃ slots, s.heap[a]? = some (some slots)) ↔ ∃! x : Nat, ∃ o, s.vars[x]? = some (some o) ∧ o.buf = some a := by
  constructor
  · rintro ⟨slots, ha⟩
    obtain ⟨x, o, h1, h2⟩ := h.owned a slots ha
    refine ⟨x, ⟨o, h1, h2⟩, ?_⟩
    rintro y ⟨oy, h3, h4⟩
    exact h.apart y x oy o a h3 h1 h4 h2
  · rintro ⟨x, ⟨o, h1, h2⟩, _⟩
    obtain ⟨q, _, hok⟩ := h.okAt h1
    exact (hok.live h2).2

/-- The objects in a block are the elements of its variable. -/
theorem CbRel.objects {s : CbMem α} {d : Spec.DequeVars α} (h : CbRel s d) {x : Nat} {o : CbObj} {q : Spec.Deque α} {a : Nat} {slots : List (Option α)}
    (hx : s.vars[x]? = some (some o)) (hq : d[x]? = some (some q)) (ha : o.buf = some a) (hsl : s.heap[a]? = some (some slots)) :
    slots.length = q.cap ∧ (slots.filterMap id).Perm q.items := by
  rcases h.ok x o q hx hq with ⟨h0, _⟩ | ⟨a', sl, h1, h2, h3, h4, h5⟩
  · rw [h0] at ha; simp [cbNull] at ha
  · rw [h1] at ha; cases ha
    rw [h2] at hsl; cases hsl
    refine ⟨by omega, ?_⟩
    by_cases hz : slots.length = 0
    · have e1 : slots = [] := List.length_eq_zero_iff.mp hz
      have e2 : q.items = [] := by
        have := h5.le_cap
        simp only at this
        exact List.length_eq_zero_iff.mp (by omega)
      rw [e1, e2]; simp
    · have hf : o.first < slots.length := by have := h5.first_lt; simp only at this; omega
      -- the slots are a rotation of the elements followed by empty slots
      have hrot : slots.drop o.first ++ slots.take o.first = q.items.map some ++ List.replicate (slots.length - q.items.length) none := by
        have hle := h5.le_cap
        simp only at hle
        apply List.ext_getElem?
        intro i
        by_cases hi : i < slots.length
        · have hs := h5.slot i (by simpa using hi)
          change slots[if o.first + i ≥ slots.length then o.first + i - slots.length else o.first + i]? = some q.items[i]? at hs
          have l : (slots.drop o.first ++ slots.take o.first)[i]? = some q.items[i]? := by
            rw [← hs]
            by_cases hw : o.first + i ≥ slots.length
            · rw [if_pos hw, List.getElem?_append_right (by rw [List.length_drop]; omega), List.length_drop, List.getElem?_take_of_lt (by omega)]
              congr 1; omega
            · rw [if_neg hw, List.getElem?_append_left (by rw [List.length_drop]; omega), List.getElem?_drop]
          rw [l]
          by_cases hq' : i < q.items.length
          · rw [List.getElem?_append_left (by simpa using hq')]; simp [hq']
          · rw [List.getElem?_append_right (by simp; omega), List.getElem?_eq_none (by omega), List.getElem?_replicate, if_pos (by simp; omega)]
        · rw [List.getElem?_eq_none (by simp; omega), List.getElem?_eq_none (by simp; omega)]
      have hp : slots.Perm (slots.drop o.first ++ slots.take o.first) := by
        calc slots = slots.take o.first ++ slots.drop o.first := (List.take_append_drop _ _).symm
          _ |>.Perm _ := List.perm_append_comm
      have := hp.filterMap id
      rw [hrot] at this
      simpa [List.filterMap_append, List.filterMap_map] using this

end Gapp.Model
