import Verif.Proofs.ThreadPoolShape

/-! Counting invariants of the pool. -/

namespace Gapp.Model

variable {E : Type}

/-- 1 if the two are equal. -/
def same (a b : Nat) : Nat := if a = b then 1 else 0

theorem same_self (a : Nat) : same a a = 1 := if_pos rfl
theorem same_ne {a b : Nat} (h : a ≠ b) : same a b = 0 := if_neg h

/-- Tasks of loop `l` that have not ended. -/
def tasksF (l : Nat) : PoolFrame E → Nat
  | .task l' _ => same l' l
  | .submit l' bs _ _ => same l' l * bs.length
  | _ => 0

def tasksG (l : Nat) (k : PoolTask E) : Nat := same k.loop l

/-- Calls of loop `l` before its own block is done. -/
def earlyF (l : Nat) : PoolFrame E → Nat
  | .own l' _ => same l' l
  | .submit l' _ _ _ => same l' l
  | _ => 0

/-- Calls of loop `l` that wait for the tasks. -/
def lateF (l : Nat) : PoolFrame E → Nat
  | .wait l' => same l' l
  | .taking l' => same l' l
  | .check l' => same l' l
  | _ => 0

/-- How often iteration `i` is in a list. -/
def itemCount (i : Nat) (xs : List (PoolItem E)) : Nat := (xs.map (·.1)).count i

/-- Iteration `i` of loop `l` is to be started. -/
def pendF (l i : Nat) : PoolFrame E → Nat
  | .own l' todo => same l' l * itemCount i todo
  | .submit l' bs own _ => same l' l * itemCount i (bs.flatten ++ own)
  | .task l' todo => same l' l * itemCount i todo
  | _ => 0

def pendG (l i : Nat) (k : PoolTask E) : Nat := same k.loop l * itemCount i k.items

/-- Iteration `i` of loop `l` is running. -/
def runF (l i : Nat) : PoolFrame E → Nat
  | .body (some (l', i')) _ => same l' l * same i' i
  | _ => 0

theorem itemCount_nil (i : Nat) : itemCount i ([] : List (PoolItem E)) = 0 := rfl

theorem itemCount_cons (i : Nat) (x : PoolItem E) (xs : List (PoolItem E)) :
    itemCount i (x :: xs) = same x.1 i + itemCount i xs := by
  unfold itemCount same
  rw [List.map_cons, List.count_cons]
  by_cases h : x.1 = i
  · rw [if_pos h, if_pos (by simpa using h), Nat.add_comm]
  · rw [if_neg h, if_neg (by simpa using h), Nat.zero_add, Nat.add_zero]

theorem itemCount_append (i : Nat) (xs ys : List (PoolItem E)) :
    itemCount i (xs ++ ys) = itemCount i xs + itemCount i ys := by
  unfold itemCount
  rw [List.map_append, List.count_append]

theorem count_pair_cons (l i l' i' : Nat) (xs : List (Nat × Nat)) :
    ((l', i') :: xs).count (l, i) = same l' l * same i' i + xs.count (l, i) := by
  rw [List.count_cons]
  unfold same
  by_cases h : l' = l <;> by_cases h2 : i' = i <;> simp [h, h2, Nat.add_comm]

theorem count_skipped (l i l' : Nat) (todo : List (PoolItem E)) (xs : List (Nat × Nat)) :
    (todo.map (fun x => (l', x.1)) ++ xs).count (l, i) = same l' l * itemCount i todo + xs.count (l, i) := by
  induction todo with
  | nil => rw [itemCount_nil, Nat.mul_zero, Nat.zero_add]; rfl
  | cons x todo ih =>
    rw [List.map_cons, List.cons_append, count_pair_cons, ih, itemCount_cons, Nat.mul_add, Nat.add_assoc]

/-- The weight of an iteration does not depend on what it is doing. -/
def BodyConst (f : PoolFrame E → Nat) : Prop := ∀ tag p p', f (.body tag p) = f (.body tag p')

theorem sum_throwInto {f : PoolFrame E → Nat} (hf : BodyConst f) (e : E) (rest : List (PoolCall E)) :
    ((throwInto e rest).map (fun c => f c.frame)).sum = (rest.map (fun c => f c.frame)).sum := by
  unfold throwInto
  split
  · rename_i τ tag p r
    rw [List.map_cons, List.map_cons, List.sum_cons, List.sum_cons]
    show f (.body tag (.throw e)) + _ = f (.body tag p) + _
    rw [hf tag (.throw e) p]
  · rfl

/-- The sum is the part of one thread and the rest. -/
theorem wsum_split {T W : Nat} (f : PoolFrame E → Nat) (g : PoolTask E → Nat) {calls : Nat → List (PoolCall E)}
    (queues : Nat → List (PoolTask E)) {t : Nat} (ht : t < T) {old : List (PoolCall E)} (hs : calls t = old) :
    ∃ r, wsum T W f g calls queues = r + (old.map (fun c => f c.frame)).sum ∧
      ∀ new, wsum T W f g (upd calls t new) queues = r + (new.map (fun c => f c.frame)).sum := by
  have h2 := le_sumTo (f := fun t => ((calls t).map (fun c => f c.frame)).sum) ht
  simp only [hs] at h2
  have h3 : (old.map (fun c => f c.frame)).sum ≤ wsum T W f g calls queues := by unfold wsum; omega
  refine ⟨wsum T W f g calls queues - (old.map (fun c => f c.frame)).sum, by omega, fun new => ?_⟩
  have h1 := wsum_calls (W := W) f g calls queues ht new
  rw [hs] at h1
  omega

/-- The sum is the part of one thread, the part of one queue and the rest. -/
theorem wsum_splitQ {T W : Nat} (f : PoolFrame E → Nat) (g : PoolTask E → Nat) {calls : Nat → List (PoolCall E)}
    {queues : Nat → List (PoolTask E)} {t w : Nat} (ht : t < T) (hw : w < W) {old : List (PoolCall E)} {qold : List (PoolTask E)}
    (hs : calls t = old) (hq : queues w = qold) :
    ∃ r, wsum T W f g calls queues = r + (old.map (fun c => f c.frame)).sum + (qold.map g).sum ∧
      ∀ new qnew, wsum T W f g (upd calls t new) (upd queues w qnew) = r + (new.map (fun c => f c.frame)).sum + (qnew.map g).sum := by
  have h2 := le_sumTo (f := fun t => ((calls t).map (fun c => f c.frame)).sum) ht
  have h5 := le_sumTo (f := fun w => ((queues w).map g).sum) hw
  simp only [hs] at h2
  simp only [hq] at h5
  have h3 : (old.map (fun c => f c.frame)).sum + (qold.map g).sum ≤ wsum T W f g calls queues := by unfold wsum; omega
  refine ⟨wsum T W f g calls queues - (old.map (fun c => f c.frame)).sum - (qold.map g).sum, by omega, fun new qnew => ?_⟩
  have h1 := wsum_calls (W := W) f g calls (upd queues w qnew) ht new
  have h4 := wsum_queues (T := T) f g calls queues hw qnew
  rw [hs] at h1
  rw [hq] at h4
  omega

theorem sum1 {α : Type} (F : α → Nat) (a : α) (l : List α) : ((a :: l).map F).sum = F a + (l.map F).sum := by
  rw [List.map_cons, List.sum_cons]

theorem sum0 {α : Type} (F : α → Nat) : (([] : List α).map F).sum = 0 := rfl

theorem wsum_key {T W : Nat} {s : PoolState E} {t : Nat} (h : PInv T W s) (f : PoolFrame E → Nat) (g : PoolTask E → Nat)
    (c : PoolCall E) (rest : List (PoolCall E)) (hs : s.calls t = c :: rest) :
    ∃ r, wsum T W f g s.calls s.queues = r + (f c.frame + (rest.map (fun c => f c.frame)).sum) ∧
      ∀ new, wsum T W f g (upd s.calls t new) s.queues = r + (new.map (fun c => f c.frame)).sum := by
  obtain ⟨r, h1, h2⟩ := wsum_split (W := W) f g s.queues (h.lt hs) hs
  exact ⟨r, by rw [h1, sum1], h2⟩

/-- What `StackOk` says about a call in the middle of a stack. -/
theorem stackOk_mem {W t : Nat} {st : List (PoolCall E)} (h : StackOk W t st) {c : PoolCall E} (hc : c ∈ st) :
    ∃ rest, CallOk W t c rest ∧ (∀ x ∈ rest, x ∈ st) := by
  induction st with
  | nil => cases hc
  | cons d st ih =>
    rcases List.mem_cons.1 hc with hcd | hcd
    · subst hcd; exact ⟨st, h.1, fun x hx => List.mem_cons_of_mem _ hx⟩
    · obtain ⟨rest, h1, h2⟩ := ih h.2.2 hcd
      exact ⟨rest, h1, fun x hx => List.mem_cons_of_mem _ (h2 x hx)⟩

/-- The loop a call belongs to is not newer than the call. -/
theorem frame_loop_le {T W : Nat} {s : PoolState E} (h : PInv T W s) {t : Nat} {c : PoolCall E} (hc : c ∈ s.calls t) :
    (∀ l bs own slot, c.frame = .submit l bs own slot → l < s.clock) ∧ (∀ l todo, c.frame = .own l todo → l < s.clock) ∧
    (∀ l, c.frame = .wait l → l < s.clock) ∧ (∀ l, c.frame = .taking l → l < s.clock) ∧ (∀ l, c.frame = .check l → l < s.clock) ∧
    (∀ l todo, c.frame = .task l todo → l < s.clock) ∧ (∀ l i p, c.frame = .body (some (l, i)) p → l < s.clock) := by
  obtain ⟨rest, h1, h2⟩ := stackOk_mem (h.shape t) hc
  have ht := h.times t c hc
  obtain ⟨τ, f⟩ := c
  simp only at ht
  refine ⟨?_, ?_, ?_, ?_, ?_, ?_, ?_⟩
  · rintro l bs own slot rfl; have := h1.1; simp only at this; omega
  · rintro l todo rfl; have := h1.1; simp only at this; omega
  · rintro l rfl; have := h1.1; simp only at this; omega
  · rintro l rfl; have := h1.1; simp only at this; omega
  · rintro l rfl; have := h1.1; simp only at this; omega
  · rintro l todo rfl; have := h1.1; simp only at this; omega
  · rintro l i p rfl
    obtain ⟨τ', todo, r, h3 | h3⟩ := h1
    · subst h3
      obtain ⟨rest', h4, _⟩ := stackOk_mem (h.shape t) (h2 ⟨τ', .own l todo⟩ List.mem_cons_self)
      have h5 := h.times t _ (h2 ⟨τ', .own l todo⟩ List.mem_cons_self)
      have := h4.1; simp only at this h5; omega
    · subst h3
      obtain ⟨rest', h4, _⟩ := stackOk_mem (h.shape t) (h2 ⟨τ', .task l todo⟩ List.mem_cons_self)
      have h5 := h.times t _ (h2 ⟨τ', .task l todo⟩ List.mem_cons_self)
      have := h4.1; simp only at this h5; omega

theorem same_pos {a b : Nat} (h : 0 < same a b) : a = b := by
  unfold same at h
  split at h
  · assumption
  · omega

theorem fresh_sum {T W : Nat} {s : PoolState E} (h : PInv T W s) {f : PoolFrame E → Nat} {g : PoolTask E → Nat}
    (hf : ∀ t, ∀ c ∈ s.calls t, f c.frame = 0) (hg : ∀ w, ∀ k ∈ s.queues w, g k = 0) : wsum T W f g s.calls s.queues = 0 := by
  rcases Nat.eq_zero_or_pos (wsum T W f g s.calls s.queues) with h0 | h0
  · exact h0
  · exfalso
    rcases wsum_pos h0 with ⟨t, _, c, hc, hp⟩ | ⟨w, _, k, hk, hp⟩
    · rw [hf t c hc] at hp; omega
    · rw [hg w k hk] at hp; omega

theorem fresh_tasks {T W : Nat} {s : PoolState E} (h : PInv T W s) : wsum T W (tasksF s.clock) (tasksG s.clock) s.calls s.queues = 0 := by
  refine fresh_sum h (fun t c hc => ?_) (fun w k hk => ?_)
  · have hl := frame_loop_le h hc
    rcases hcf : c.frame with ⟨_, _⟩ | ⟨l, bs, own, slot⟩ | ⟨l, todo⟩ | l | l | l | ⟨l, todo⟩ <;> try rfl
    · show same l s.clock * _ = 0
      rw [same_ne (Nat.ne_of_lt (hl.1 _ _ _ _ hcf)), Nat.zero_mul]
    · exact same_ne (Nat.ne_of_lt (hl.2.2.2.2.2.1 _ _ hcf))
  · exact same_ne (Nat.ne_of_lt (h.qloop w k hk))

theorem fresh_early {T W : Nat} {s : PoolState E} (h : PInv T W s) : wsum T W (earlyF s.clock) (fun _ => 0) s.calls s.queues = 0 := by
  refine fresh_sum h (fun t c hc => ?_) (fun w k hk => rfl)
  have hl := frame_loop_le h hc
  rcases hcf : c.frame with ⟨_, _⟩ | ⟨l, bs, own, slot⟩ | ⟨l, todo⟩ | l | l | l | ⟨l, todo⟩ <;> try rfl
  · exact same_ne (Nat.ne_of_lt (hl.1 _ _ _ _ hcf))
  · exact same_ne (Nat.ne_of_lt (hl.2.1 _ _ hcf))

theorem fresh_late {T W : Nat} {s : PoolState E} (h : PInv T W s) : wsum T W (lateF s.clock) (fun _ => 0) s.calls s.queues = 0 := by
  refine fresh_sum h (fun t c hc => ?_) (fun w k hk => rfl)
  have hl := frame_loop_le h hc
  rcases hcf : c.frame with ⟨_, _⟩ | ⟨l, bs, own, slot⟩ | ⟨l, todo⟩ | l | l | l | ⟨l, todo⟩ <;> try rfl
  · exact same_ne (Nat.ne_of_lt (hl.2.2.1 _ hcf))
  · exact same_ne (Nat.ne_of_lt (hl.2.2.2.1 _ hcf))
  · exact same_ne (Nat.ne_of_lt (hl.2.2.2.2.1 _ hcf))


theorem fresh_pend {T W : Nat} {s : PoolState E} (h : PInv T W s) (i : Nat) :
    wsum T W (pendF s.clock i) (pendG s.clock i) s.calls s.queues = 0 := by
  refine fresh_sum h (fun t c hc => ?_) (fun w k hk => ?_)
  · have hl := frame_loop_le h hc
    rcases hcf : c.frame with ⟨_, _⟩ | ⟨l, bs, own, slot⟩ | ⟨l, todo⟩ | l | l | l | ⟨l, todo⟩ <;> try rfl
    · show same l s.clock * _ = 0
      rw [same_ne (Nat.ne_of_lt (hl.1 _ _ _ _ hcf)), Nat.zero_mul]
    · show same l s.clock * _ = 0
      rw [same_ne (Nat.ne_of_lt (hl.2.1 _ _ hcf)), Nat.zero_mul]
    · show same l s.clock * _ = 0
      rw [same_ne (Nat.ne_of_lt (hl.2.2.2.2.2.1 _ _ hcf)), Nat.zero_mul]
  · show same k.loop s.clock * _ = 0
    rw [same_ne (Nat.ne_of_lt (h.qloop w k hk)), Nat.zero_mul]


/-! ## The latch counts the tasks -/

def LatchInv (T W : Nat) (s : PoolState E) : Prop := ∀ l, s.latch l = wsum T W (tasksF l) (tasksG l) s.calls s.queues

theorem latch_step {T W : Nat} {s s' : PoolState E} {t : Nat} (h : PInv T W s) (hi : LatchInv T W s) (hstep : PStep W s t s') :
    LatchInv T W s' := by
  intro l
  have hl := hi l
  have hbc : BodyConst (E := E) (tasksF l) := fun _ _ _ => rfl
  have key := wsum_key h (tasksF l) (tasksG l) (t := t)
  cases hstep
  case same => exact hl
  case takeIdle k q hs ht hq =>
    obtain ⟨r, h1, h2⟩ := wsum_splitQ (tasksF l) (tasksG l) (Nat.lt_of_lt_of_le ht h.le) ht hs hq
    show s.latch l = wsum T W _ _ (upd s.calls t _) (upd s.queues t q)
    rw [h2, hl, h1]
    simp only [sum1, sum0, tasksF, tasksG]
    omega
  case takeLocal k q rest hq hs =>
    have ht : t < W := by have := h.shape t; rw [hs] at this; exact this.1.2.1
    obtain ⟨r, h1, h2⟩ := wsum_splitQ (tasksF l) (tasksG l) (Nat.lt_of_lt_of_le ht h.le) ht hs hq
    show s.latch l = wsum T W _ _ (upd s.calls t _) (upd s.queues t q)
    rw [h2, hl, h1]
    simp only [sum1, sum0, tasksF, tasksG]
    omega
  case push τ l' b bs own q rest hs =>
    have hqW : q % W < W := by have := h.shape t; rw [hs] at this; exact Nat.mod_lt q (this.1.2.1 (List.cons_ne_nil _ _))
    obtain ⟨r, h1, h2⟩ := wsum_splitQ (tasksF l) (tasksG l) (h.lt hs) hqW hs rfl
    show s.latch l = wsum T W _ _ (upd s.calls t _) (upd s.queues (q % W) _)
    rw [h2, hl, h1]
    simp only [sum1, sum0, tasksF, tasksG, List.map_append, List.sum_append, List.length_cons, Nat.mul_add]
    omega
  case throwOwn τ tag e τ' l' todo rest hs =>
    obtain ⟨r, h1, h2⟩ := key _ _ hs
    show s.latch l = wsum T W _ _ (upd s.calls t _) s.queues
    rw [h2, hl, h1, sum_throwInto hbc]
    simp only [sum1, tasksF]; omega
  case retThrow hs =>
    obtain ⟨r, h1, h2⟩ := key _ _ hs
    show s.latch l = wsum T W _ _ (upd s.calls t _) s.queues
    rw [h2, hl, h1, sum_throwInto hbc]
    simp only [tasksF]; omega
  case taskEnd τ l' rest hs =>
    obtain ⟨r, h1, h2⟩ := key _ _ hs
    show upd s.latch l' (s.latch l' - 1) l = wsum T W _ _ (upd s.calls t _) s.queues
    rw [h2]
    by_cases hll : l = l'
    · subst hll
      rw [upd_same, hl, h1]
      simp only [tasksF, same_self]; omega
    · rw [upd_ne _ _ hll, hl, h1]
      simp only [tasksF, same_ne (Ne.symm hll)]; omega
  case start τ tag iters b next rest hne hs =>
    obtain ⟨r, h1, h2⟩ := key _ _ hs
    show upd s.latch s.clock _ l = wsum T W _ _ (upd s.calls t _) s.queues
    rw [h2]
    by_cases hll : l = s.clock
    · have h0 := fresh_tasks h
      rw [← hll, h1] at h0
      rw [hll, upd_same, ← hll]
      simp only [sum1, tasksF, same_self, loopBlocks_length, List.length_map, List.length_zipIdx] at h0 ⊢
      omega
    · rw [upd_ne _ _ hll, hl, h1]
      simp only [sum1, tasksF, same_ne (Ne.symm hll)]; omega
  all_goals
    rename_i hs
    obtain ⟨r, h1, h2⟩ := key _ _ hs
    show s.latch l = wsum T W _ _ (upd s.calls t _) s.queues
    rw [h2, hl, h1]
    simp only [sum1, tasksF, List.length_nil, List.length_cons]
    try omega

/-! ## A loop call is open exactly as long as its variables live -/

def OwnerInv (T W : Nat) (s : PoolState E) : Prop := ∀ l, wsum T W (earlyF l) (fun _ => 0) s.calls s.queues
    + wsum T W (lateF l) (fun _ => 0) s.calls s.queues = if s.alive l then 1 else 0

theorem owner_step {T W : Nat} {s s' : PoolState E} {t : Nat} (h : PInv T W s) (hi : OwnerInv T W s) (hstep : PStep W s t s') :
    OwnerInv T W s' := by
  intro l
  have hl := hi l
  have hbc : BodyConst (E := E) (earlyF l) := fun _ _ _ => rfl
  have hbc' : BodyConst (E := E) (lateF l) := fun _ _ _ => rfl
  have key := wsum_key h (earlyF l) (fun _ => 0) (t := t)
  have key' := wsum_key h (lateF l) (fun _ => 0) (t := t)
  cases hstep
  case same => exact hl
  case takeIdle k q hs ht hq =>
    obtain ⟨r, h1, h2⟩ := wsum_splitQ (earlyF l) (fun _ => 0) (Nat.lt_of_lt_of_le ht h.le) ht hs hq
    obtain ⟨r', h1', h2'⟩ := wsum_splitQ (lateF l) (fun _ => 0) (Nat.lt_of_lt_of_le ht h.le) ht hs hq
    show wsum T W _ _ (upd s.calls t _) (upd s.queues t q) + wsum T W _ _ (upd s.calls t _) (upd s.queues t q) = if s.alive l then 1 else 0
    rw [h2, h2', ← hl, h1, h1']
    simp only [sum1, sum0, earlyF, lateF]
    omega
  case takeLocal k q rest hq hs =>
    have ht : t < W := by have := h.shape t; rw [hs] at this; exact this.1.2.1
    obtain ⟨r, h1, h2⟩ := wsum_splitQ (earlyF l) (fun _ => 0) (Nat.lt_of_lt_of_le ht h.le) ht hs hq
    obtain ⟨r', h1', h2'⟩ := wsum_splitQ (lateF l) (fun _ => 0) (Nat.lt_of_lt_of_le ht h.le) ht hs hq
    show wsum T W _ _ (upd s.calls t _) (upd s.queues t q) + wsum T W _ _ (upd s.calls t _) (upd s.queues t q) = if s.alive l then 1 else 0
    rw [h2, h2', ← hl, h1, h1']
    simp only [sum1, sum0, earlyF, lateF]
    omega
  case push τ l' b bs own q rest hs =>
    have hqW : q % W < W := by have := h.shape t; rw [hs] at this; exact Nat.mod_lt q (this.1.2.1 (List.cons_ne_nil _ _))
    obtain ⟨r, h1, h2⟩ := wsum_splitQ (earlyF l) (fun _ => 0) (h.lt hs) hqW hs rfl
    obtain ⟨r', h1', h2'⟩ := wsum_splitQ (lateF l) (fun _ => 0) (h.lt hs) hqW hs rfl
    show wsum T W _ _ (upd s.calls t _) (upd s.queues (q % W) _) + wsum T W _ _ (upd s.calls t _) (upd s.queues (q % W) _) = if s.alive l then 1 else 0
    rw [h2, h2', ← hl, h1, h1']
    simp only [sum1, sum0, earlyF, lateF, List.map_append, List.sum_append]
    omega
  case throwOwn τ tag e τ' l' todo rest hs =>
    obtain ⟨r, h1, h2⟩ := key _ _ hs
    obtain ⟨r', h1', h2'⟩ := key' _ _ hs
    show wsum T W _ _ (upd s.calls t _) s.queues + wsum T W _ _ (upd s.calls t _) s.queues = if upd s.alive l' false l then 1 else 0
    rw [h2, h2', sum_throwInto hbc, sum_throwInto hbc']
    rw [h1, h1'] at hl
    by_cases hll : l = l'
    · subst hll
      rw [upd_same]
      simp only [sum1, earlyF, lateF, same_self] at hl ⊢
      split at hl <;> simp only [Bool.false_eq_true, if_false] <;> omega
    · rw [upd_ne _ _ hll, ← hl]
      simp only [sum1, earlyF, lateF, same_ne (Ne.symm hll)]; omega
  case retOk τ l' rest _ _ hs =>
    obtain ⟨r, h1, h2⟩ := key _ _ hs
    obtain ⟨r', h1', h2'⟩ := key' _ _ hs
    show wsum T W _ _ (upd s.calls t _) s.queues + wsum T W _ _ (upd s.calls t _) s.queues = if upd s.alive l' false l then 1 else 0
    rw [h2, h2']
    rw [h1, h1'] at hl
    by_cases hll : l = l'
    · subst hll
      rw [upd_same]
      simp only [sum1, earlyF, lateF, same_self] at hl ⊢
      split at hl <;> simp only [Bool.false_eq_true, if_false] <;> omega
    · rw [upd_ne _ _ hll, ← hl]
      simp only [sum1, earlyF, lateF, same_ne (Ne.symm hll)]; omega
  case retThrow τ l' e rest _ _ hs =>
    obtain ⟨r, h1, h2⟩ := key _ _ hs
    obtain ⟨r', h1', h2'⟩ := key' _ _ hs
    show wsum T W _ _ (upd s.calls t _) s.queues + wsum T W _ _ (upd s.calls t _) s.queues = if upd s.alive l' false l then 1 else 0
    rw [h2, h2', sum_throwInto hbc, sum_throwInto hbc']
    rw [h1, h1'] at hl
    by_cases hll : l = l'
    · subst hll
      rw [upd_same]
      simp only [sum1, earlyF, lateF, same_self] at hl ⊢
      split at hl <;> simp only [Bool.false_eq_true, if_false] <;> omega
    · rw [upd_ne _ _ hll, ← hl]
      simp only [sum1, earlyF, lateF, same_ne (Ne.symm hll)]; omega
  case start τ tag iters b next rest hne hs =>
    obtain ⟨r, h1, h2⟩ := key _ _ hs
    obtain ⟨r', h1', h2'⟩ := key' _ _ hs
    show wsum T W _ _ (upd s.calls t _) s.queues + wsum T W _ _ (upd s.calls t _) s.queues = if upd s.alive s.clock true l then 1 else 0
    rw [h2, h2']
    by_cases hll : l = s.clock
    · have h0 := fresh_early h
      have h0' := fresh_late h
      rw [← hll] at h0 h0'
      rw [h1] at h0
      rw [h1'] at h0'
      rw [hll, upd_same, if_pos rfl, ← hll]
      simp only [sum1, earlyF, lateF, same_self] at h0 h0' ⊢
      omega
    · rw [upd_ne _ _ hll, ← hl, h1, h1']
      simp only [sum1, earlyF, lateF, same_ne (Ne.symm hll)]; omega
  all_goals
    rename_i hs
    obtain ⟨r, h1, h2⟩ := key _ _ hs
    obtain ⟨r', h1', h2'⟩ := key' _ _ hs
    show wsum T W _ _ (upd s.calls t _) s.queues + wsum T W _ _ (upd s.calls t _) s.queues = if s.alive l then 1 else 0
    rw [h2, h2', ← hl, h1, h1']
    simp only [sum1, earlyF, lateF]
    try omega

/-! ## Every iteration is waiting, started or skipped -/

def PendInv (T W : Nat) (s : PoolState E) : Prop := ∀ l i, s.started.count (l, i) + wsum T W (pendF l i) (pendG l i) s.calls s.queues
    + s.skipped.count (l, i) = if i < s.size l then 1 else 0

theorem itemCount_zipIdx (i : Nat) (iters : List (PoolProg E)) :
    itemCount i (iters.zipIdx.map (fun x => (x.2, x.1))) = if i < iters.length then 1 else 0 := by
  unfold itemCount
  rw [List.map_map]
  have : (iters.zipIdx.map ((fun x : PoolItem E => x.1) ∘ fun x => (x.2, x.1))) = List.range iters.length := by
    have := List.zipIdx_map_snd 0 iters
    rw [List.range_eq_range', ← this]
    rfl
  rw [this]
  by_cases hi : i < iters.length
  · rw [if_pos hi, List.nodup_range.count, if_pos (List.mem_range.2 hi)]
  · rw [if_neg hi, List.count_eq_zero_of_not_mem (fun h => hi (List.mem_range.1 h))]

theorem pend_step {T W : Nat} {s s' : PoolState E} {t : Nat} (h : PInv T W s) (hi : PendInv T W s)
    (hfresh : ∀ l, s.clock ≤ l → ∀ i, s.started.count (l, i) = 0 ∧ s.skipped.count (l, i) = 0) (hstep : PStep W s t s') :
    PendInv T W s' := by
  intro l i
  have hl := hi l i
  have hbc : BodyConst (E := E) (pendF l i) := fun _ _ _ => rfl
  have key := wsum_key h (pendF l i) (pendG l i) (t := t)
  cases hstep
  case same => exact hl
  case takeIdle k q hs ht hq =>
    obtain ⟨r, h1, h2⟩ := wsum_splitQ (pendF l i) (pendG l i) (Nat.lt_of_lt_of_le ht h.le) ht hs hq
    show _ + wsum T W _ _ (upd s.calls t _) (upd s.queues t q) + _ = if i < s.size l then 1 else 0
    rw [h2, ← hl, h1]
    simp only [sum1, sum0, pendF, pendG]
    omega
  case takeLocal k q rest hq hs =>
    have ht : t < W := by have := h.shape t; rw [hs] at this; exact this.1.2.1
    obtain ⟨r, h1, h2⟩ := wsum_splitQ (pendF l i) (pendG l i) (Nat.lt_of_lt_of_le ht h.le) ht hs hq
    show _ + wsum T W _ _ (upd s.calls t _) (upd s.queues t q) + _ = if i < s.size l then 1 else 0
    rw [h2, ← hl, h1]
    simp only [sum1, sum0, pendF, pendG]
    omega
  case push τ l' b bs own q rest hs =>
    have hqW : q % W < W := by have := h.shape t; rw [hs] at this; exact Nat.mod_lt q (this.1.2.1 (List.cons_ne_nil _ _))
    obtain ⟨r, h1, h2⟩ := wsum_splitQ (pendF l i) (pendG l i) (h.lt hs) hqW hs rfl
    show _ + wsum T W _ _ (upd s.calls t _) (upd s.queues (q % W) _) + _ = if i < s.size l then 1 else 0
    rw [h2, ← hl, h1]
    simp only [sum1, sum0, pendF, pendG, List.map_append, List.sum_append, List.flatten_cons, itemCount_append, Nat.mul_add]
    omega
  case throwTask τ tag e τ' l' todo rest hs =>
    obtain ⟨r, h1, h2⟩ := key _ _ hs
    show _ + wsum T W _ _ (upd s.calls t _) s.queues + List.count _ (_ ++ _) = if i < s.size l then 1 else 0
    rw [h2, ← hl, h1, count_skipped]
    simp only [sum1, pendF, itemCount_nil]; omega
  case throwOwn τ tag e τ' l' todo rest hs =>
    obtain ⟨r, h1, h2⟩ := key _ _ hs
    show _ + wsum T W _ _ (upd s.calls t _) s.queues + List.count _ (_ ++ _) = if i < s.size l then 1 else 0
    rw [h2, ← hl, h1, count_skipped, sum_throwInto hbc]
    simp only [sum1, pendF]; omega
  case retThrow hs =>
    obtain ⟨r, h1, h2⟩ := key _ _ hs
    show _ + wsum T W _ _ (upd s.calls t _) s.queues + _ = if i < s.size l then 1 else 0
    rw [h2, ← hl, h1, sum_throwInto hbc]
    simp only [pendF]; omega
  case ownStart τ l' x todo rest hs =>
    obtain ⟨r, h1, h2⟩ := key _ _ hs
    show List.count _ (_ :: _) + wsum T W _ _ (upd s.calls t _) s.queues + _ = if i < s.size l then 1 else 0
    rw [h2, ← hl, h1, count_pair_cons]
    simp only [sum1, pendF, itemCount_cons, Nat.mul_add]; omega
  case taskStart τ l' x todo rest hs =>
    obtain ⟨r, h1, h2⟩ := key _ _ hs
    show List.count _ (_ :: _) + wsum T W _ _ (upd s.calls t _) s.queues + _ = if i < s.size l then 1 else 0
    rw [h2, ← hl, h1, count_pair_cons]
    simp only [sum1, pendF, itemCount_cons, Nat.mul_add]; omega
  case start τ tag iters b next rest hne hs =>
    obtain ⟨r, h1, h2⟩ := key _ _ hs
    show s.started.count (l, i) + wsum T W _ _ (upd s.calls t _) s.queues + s.skipped.count (l, i) = if i < upd s.size s.clock iters.length l then 1 else 0
    rw [h2]
    by_cases hll : l = s.clock
    · have h0 := fresh_pend h i
      rw [← hll, h1] at h0
      have h3 := hfresh l (by omega) i
      rw [hll, upd_same, ← hll]
      simp only [sum1, pendF, same_self, loopBlocks_flatten, itemCount_zipIdx] at h0 ⊢
      omega
    · rw [upd_ne _ _ hll, ← hl, h1]
      simp only [sum1, pendF, same_ne (Ne.symm hll), Nat.zero_mul]; omega
  case ownEndW hs =>
    obtain ⟨r, h1, h2⟩ := key _ _ hs
    show _ + wsum T W _ _ (upd s.calls t _) s.queues + _ = if i < s.size l then 1 else 0
    rw [h2, ← hl, h1]
    simp only [sum1, pendF, itemCount_nil]; omega
  case ownEndU hs =>
    obtain ⟨r, h1, h2⟩ := key _ _ hs
    show _ + wsum T W _ _ (upd s.calls t _) s.queues + _ = if i < s.size l then 1 else 0
    rw [h2, ← hl, h1]
    simp only [sum1, pendF, itemCount_nil]; omega
  case taskEnd hs =>
    obtain ⟨r, h1, h2⟩ := key _ _ hs
    show _ + wsum T W _ _ (upd s.calls t _) s.queues + _ = if i < s.size l then 1 else 0
    rw [h2, ← hl, h1]
    simp only [pendF, itemCount_nil]; omega
  case submitted hs =>
    obtain ⟨r, h1, h2⟩ := key _ _ hs
    show _ + wsum T W _ _ (upd s.calls t _) s.queues + _ = if i < s.size l then 1 else 0
    rw [h2, ← hl, h1]
    simp only [sum1, pendF, List.flatten_nil, List.nil_append]
  all_goals
    rename_i hs
    obtain ⟨r, h1, h2⟩ := key _ _ hs
    show _ + wsum T W _ _ (upd s.calls t _) s.queues + _ = if i < s.size l then 1 else 0
    rw [h2, ← hl, h1]
    simp only [sum1, pendF]
    try omega

/-! ## A started iteration is running or has ended -/

def RunInv (T W : Nat) (s : PoolState E) : Prop := ∀ l i,
    s.started.count (l, i) = s.ended.count (l, i) + wsum T W (runF l i) (fun _ => 0) s.calls s.queues

theorem runF_body (l i : Nat) (tag : Option (Nat × Nat)) (p : PoolProg E) (xs : List (Nat × Nat)) :
    (tag.toList ++ xs).count (l, i) = runF l i (.body tag p) + xs.count (l, i) := by
  rcases tag with _ | ⟨a, b⟩
  · show xs.count (l, i) = 0 + _
    omega
  · show ((a, b) :: xs).count (l, i) = _
    rw [count_pair_cons]
    rfl

theorem run_step {T W : Nat} {s s' : PoolState E} {t : Nat} (h : PInv T W s) (hi : RunInv T W s) (hstep : PStep W s t s') :
    RunInv T W s' := by
  intro l i
  have hl := hi l i
  have hbc : BodyConst (E := E) (runF l i) := by intro tag p p'; rcases tag with _ | ⟨_, _⟩ <;> rfl
  have key := wsum_key h (runF l i) (fun _ => 0) (t := t)
  cases hstep
  case same => exact hl
  case takeIdle k q hs ht hq =>
    obtain ⟨r, h1, h2⟩ := wsum_splitQ (runF l i) (fun _ => 0) (Nat.lt_of_lt_of_le ht h.le) ht hs hq
    show _ = _ + wsum T W _ _ (upd s.calls t _) (upd s.queues t q)
    rw [h2, hl, h1]
    simp only [sum1, sum0, runF]
    omega
  case takeLocal k q rest hq hs =>
    have ht : t < W := by have := h.shape t; rw [hs] at this; exact this.1.2.1
    obtain ⟨r, h1, h2⟩ := wsum_splitQ (runF l i) (fun _ => 0) (Nat.lt_of_lt_of_le ht h.le) ht hs hq
    show _ = _ + wsum T W _ _ (upd s.calls t _) (upd s.queues t q)
    rw [h2, hl, h1]
    simp only [sum1, sum0, runF]
    omega
  case push τ l' b bs own q rest hs =>
    have hqW : q % W < W := by have := h.shape t; rw [hs] at this; exact Nat.mod_lt q (this.1.2.1 (List.cons_ne_nil _ _))
    obtain ⟨r, h1, h2⟩ := wsum_splitQ (runF l i) (fun _ => 0) (h.lt hs) hqW hs rfl
    show _ = _ + wsum T W _ _ (upd s.calls t _) (upd s.queues (q % W) _)
    rw [h2, hl, h1]
    simp only [sum1, sum0, runF, List.map_append, List.sum_append]
    omega
  case throwTask τ tag e τ' l' todo rest hs =>
    obtain ⟨r, h1, h2⟩ := key _ _ hs
    show _ = List.count _ (_ ++ _) + wsum T W _ _ (upd s.calls t _) s.queues
    rw [h2, hl, h1, runF_body l i tag (.throw e)]
    rw [sum1, sum1]
    show _ + (_ + (runF l i (.body tag (.throw e)) + (0 + _))) = _ + (_ + (0 + _))
    omega
  case throwOwn τ tag e τ' l' todo rest hs =>
    obtain ⟨r, h1, h2⟩ := key _ _ hs
    show _ = List.count _ (_ ++ _) + wsum T W _ _ (upd s.calls t _) s.queues
    rw [h2, hl, h1, runF_body l i tag (.throw e), sum_throwInto hbc, sum1]
    show _ + (_ + (runF l i (.body tag (.throw e)) + (0 + _))) = _
    omega
  case bodyDone τ tag rest hs =>
    obtain ⟨r, h1, h2⟩ := key _ _ hs
    show _ = List.count _ (_ ++ _) + wsum T W _ _ (upd s.calls t _) s.queues
    rw [h2, hl, h1, runF_body l i tag .done]
    show _ + (_ + (runF l i (.body tag .done) + _)) = _
    omega
  case throwOut τ tag e rest _ _ hs =>
    obtain ⟨r, h1, h2⟩ := key _ _ hs
    show _ = List.count _ (_ ++ _) + wsum T W _ _ (upd s.calls t _) s.queues
    rw [h2, hl, h1, runF_body l i tag (.throw e)]
    show _ + (_ + (runF l i (.body tag (.throw e)) + _)) = _
    omega
  case emptyLoop τ tag b next rest hs =>
    obtain ⟨r, h1, h2⟩ := key _ _ hs
    show _ = _ + wsum T W _ _ (upd s.calls t _) s.queues
    rw [h2, hl, h1, sum1]
    rw [hbc tag (.loop [] b next) next]
  case start τ tag iters b next rest hne hs =>
    obtain ⟨r, h1, h2⟩ := key _ _ hs
    show s.started.count (l, i) = s.ended.count (l, i) + wsum T W _ _ (upd s.calls t _) s.queues
    rw [h2, hl, h1, sum1, sum1, hbc tag (.loop iters b next) next]
    show _ = _ + (_ + (0 + (runF l i (.body tag next) + _)))
    omega
  case retThrow hs =>
    obtain ⟨r, h1, h2⟩ := key _ _ hs
    show _ = _ + wsum T W _ _ (upd s.calls t _) s.queues
    rw [h2, hl, h1, sum_throwInto hbc]
    simp only [runF]; omega
  case ownStart τ l' x todo rest hs =>
    obtain ⟨r, h1, h2⟩ := key _ _ hs
    show List.count _ (_ :: _) = _ + wsum T W _ _ (upd s.calls t _) s.queues
    rw [h2, count_pair_cons, hl, h1]
    simp only [sum1, runF]; omega
  case taskStart τ l' x todo rest hs =>
    obtain ⟨r, h1, h2⟩ := key _ _ hs
    show List.count _ (_ :: _) = _ + wsum T W _ _ (upd s.calls t _) s.queues
    rw [h2, count_pair_cons, hl, h1]
    simp only [sum1, runF]; omega
  all_goals
    rename_i hs
    obtain ⟨r, h1, h2⟩ := key _ _ hs
    show _ = _ + wsum T W _ _ (upd s.calls t _) s.queues
    rw [h2, hl, h1]
    simp only [sum1, runF]
    try omega

end Gapp.Model
