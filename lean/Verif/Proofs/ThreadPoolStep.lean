import Verif.Model.ThreadPool
import Verif.Proofs.MergePareto
import Verif.Proofs.ListAux

/-! The steps of the pool as a relation, and sums over the calls and queues. -/

namespace Gapp.Model

variable {E : Type}

/-- The thread cannot do anything: it is idle, or it waits for something. -/
def PStuck (W : Nat) (s : PoolState E) (t : Nat) : Prop :=
  (s.calls t = [] ∧ (t < W → s.queues t = [])) ∨ (∃ τ l rest, s.calls t = ⟨τ, .taking l⟩ :: rest ∧ s.queues t = []) ∨
  (∃ τ l rest, s.calls t = ⟨τ, .check l⟩ :: rest ∧ s.latch l ≠ 0 ∧ ¬ t < W)

inductive PStep (W : Nat) (s : PoolState E) (t : Nat) : PoolState E → Prop
  | same (hstuck : PStuck W s t) : PStep W s t s
  | takeIdle (k : PoolTask E) (q : List (PoolTask E)) (hs : s.calls t = []) (ht : t < W) (hq : s.queues t = k :: q) :
    PStep W s t { s with
          calls := upd s.calls t [⟨s.clock, .task k.loop k.items⟩]
          queues := upd s.queues t q
          clock := s.clock + 1 }
  | bodyDone (τ : Nat) (tag : Option (Nat × Nat)) (rest : List (PoolCall E)) (hs : s.calls t = ⟨τ, .body tag .done⟩ :: rest) :
    PStep W s t { s with calls := upd s.calls t rest, ended := tag.toList ++ s.ended }
  | throwTask (τ : Nat) (tag : Option (Nat × Nat)) (e : E) (τ' l : Nat) (todo : List (PoolItem E)) (rest : List (PoolCall E))
    (hs : s.calls t = ⟨τ, .body tag (.throw e)⟩ :: ⟨τ', .task l todo⟩ :: rest) :
    PStep W s t { s with
      calls := upd s.calls t (⟨τ', .task l []⟩ :: rest)
      exc := upd s.exc l (some ((s.exc l).getD e))
      failed := s.failed || !s.alive l
      ended := tag.toList ++ s.ended
      thrown := (l, e) :: s.thrown
      skipped := todo.map (fun x => (l, x.1)) ++ s.skipped }
  | throwOwn (τ : Nat) (tag : Option (Nat × Nat)) (e : E) (τ' l : Nat) (todo : List (PoolItem E)) (rest : List (PoolCall E))
    (hs : s.calls t = ⟨τ, .body tag (.throw e)⟩ :: ⟨τ', .own l todo⟩ :: rest) :
    PStep W s t { s with
      calls := upd s.calls t (throwInto e rest)
      alive := upd s.alive l false
      ended := tag.toList ++ s.ended
      thrown := (l, e) :: s.thrown
      skipped := todo.map (fun x => (l, x.1)) ++ s.skipped
      returned := (l, some e) :: s.returned
      leftEarly := if s.latch l ≠ 0 then l :: s.leftEarly else s.leftEarly }
  | throwOut (τ : Nat) (tag : Option (Nat × Nat)) (e : E) (rest : List (PoolCall E))
    (h1 : ∀ τ' l todo r, rest ≠ ⟨τ', .task l todo⟩ :: r) (h2 : ∀ τ' l todo r, rest ≠ ⟨τ', .own l todo⟩ :: r)
    (hs : s.calls t = ⟨τ, .body tag (.throw e)⟩ :: rest) :
    PStep W s t { s with calls := upd s.calls t rest, ended := tag.toList ++ s.ended }
  | emptyLoop (τ : Nat) (tag : Option (Nat × Nat)) (b : Nat) (next : PoolProg E) (rest : List (PoolCall E))
    (hs : s.calls t = ⟨τ, .body tag (.loop [] b next)⟩ :: rest) :
    PStep W s t { s with calls := upd s.calls t (⟨τ, .body tag next⟩ :: rest) }
  | start (τ : Nat) (tag : Option (Nat × Nat)) (iters : List (PoolProg E)) (b : Nat) (next : PoolProg E) (rest : List (PoolCall E))
    (hne : iters ≠ []) (hs : s.calls t = ⟨τ, .body tag (.loop iters b next)⟩ :: rest) :
    PStep W s t (poolStart W s t τ tag iters b next rest)
  | fetch (τ l : Nat) (b : List (PoolItem E)) (bs : List (List (PoolItem E))) (own : List (PoolItem E)) (rest : List (PoolCall E))
    (hs : s.calls t = ⟨τ, .submit l (b :: bs) own none⟩ :: rest) :
    PStep W s t { s with
      calls := upd s.calls t (⟨τ, .submit l (b :: bs) own (some s.turn)⟩ :: rest)
      turn := s.turn + 1 }
  | push (τ l : Nat) (b : List (PoolItem E)) (bs : List (List (PoolItem E))) (own : List (PoolItem E)) (n : Nat) (rest : List (PoolCall E))
    (hs : s.calls t = ⟨τ, .submit l (b :: bs) own (some n)⟩ :: rest) :
    PStep W s t { s with
      calls := upd s.calls t (⟨τ, .submit l bs own none⟩ :: rest)
      queues := upd s.queues (n % W) (s.queues (n % W) ++ [⟨l, b⟩])
      submitted := (n, n % W, b.map (·.1)) :: s.submitted }
  | submitted (τ l : Nat) (own : List (PoolItem E)) (slot : Option Nat) (rest : List (PoolCall E))
    (hs : s.calls t = ⟨τ, .submit l [] own slot⟩ :: rest) :
    PStep W s t { s with calls := upd s.calls t (⟨τ, .own l own⟩ :: rest) }
  | ownStart (τ l : Nat) (i : PoolItem E) (todo : List (PoolItem E)) (rest : List (PoolCall E))
    (hs : s.calls t = ⟨τ, .own l (i :: todo)⟩ :: rest) :
    PStep W s t { s with
      calls := upd s.calls t (⟨s.clock, .body (some (l, i.1)) i.2⟩ :: ⟨τ, .own l todo⟩ :: rest)
      started := (l, i.1) :: s.started
      clock := s.clock + 1 }
  | ownEndW (τ l : Nat) (rest : List (PoolCall E)) (ht : t < W) (hs : s.calls t = ⟨τ, .own l []⟩ :: rest) :
    PStep W s t { s with calls := upd s.calls t (⟨τ, .wait l⟩ :: rest) }
  | ownEndU (τ l : Nat) (rest : List (PoolCall E)) (ht : ¬ t < W) (hs : s.calls t = ⟨τ, .own l []⟩ :: rest) :
    PStep W s t { s with calls := upd s.calls t (⟨τ, .check l⟩ :: rest) }
  | pollTake (τ l : Nat) (rest : List (PoolCall E)) (hq : s.queues t ≠ []) (hs : s.calls t = ⟨τ, .wait l⟩ :: rest) :
    PStep W s t { s with calls := upd s.calls t (⟨τ, .taking l⟩ :: rest) }
  | pollCheck (τ l : Nat) (rest : List (PoolCall E)) (hq : s.queues t = []) (hs : s.calls t = ⟨τ, .wait l⟩ :: rest) :
    PStep W s t { s with calls := upd s.calls t (⟨τ, .check l⟩ :: rest) }
  | pollWait (τ l : Nat) (rest : List (PoolCall E)) (ht : t < W) (hl : s.latch l ≠ 0) (hs : s.calls t = ⟨τ, .check l⟩ :: rest) :
    PStep W s t { s with calls := upd s.calls t (⟨τ, .wait l⟩ :: rest) }
  | takeLocal (τ l : Nat) (k : PoolTask E) (q : List (PoolTask E)) (rest : List (PoolCall E))
    (hq : s.queues t = k :: q) (hs : s.calls t = ⟨τ, .taking l⟩ :: rest) :
    PStep W s t { s with
        calls := upd s.calls t (⟨s.clock, .task k.loop k.items⟩ :: ⟨τ, .wait l⟩ :: rest)
        queues := upd s.queues t q
        clock := s.clock + 1 }
  | retOk (τ l : Nat) (rest : List (PoolCall E)) (hl : s.latch l = 0) (he : s.exc l = none)
    (hs : s.calls t = ⟨τ, .check l⟩ :: rest) :
    PStep W s t { s with
      calls := upd s.calls t rest
      alive := upd s.alive l false
      returned := (l, none) :: s.returned }
  | retThrow (τ l : Nat) (e : E) (rest : List (PoolCall E)) (hl : s.latch l = 0) (he : s.exc l = some e)
    (hs : s.calls t = ⟨τ, .check l⟩ :: rest) :
    PStep W s t { s with
      calls := upd s.calls t (throwInto e rest)
      alive := upd s.alive l false
      returned := (l, some e) :: s.returned }
  | taskStart (τ l : Nat) (i : PoolItem E) (todo : List (PoolItem E)) (rest : List (PoolCall E))
    (hs : s.calls t = ⟨τ, .task l (i :: todo)⟩ :: rest) :
    PStep W s t { s with
      calls := upd s.calls t (⟨s.clock, .body (some (l, i.1)) i.2⟩ :: ⟨τ, .task l todo⟩ :: rest)
      started := (l, i.1) :: s.started
      failed := s.failed || !s.alive l
      clock := s.clock + 1 }
  | taskEnd (τ l : Nat) (rest : List (PoolCall E)) (hs : s.calls t = ⟨τ, .task l []⟩ :: rest) :
    PStep W s t { s with
      calls := upd s.calls t rest
      latch := upd s.latch l (s.latch l - 1)
      failed := s.failed || !s.alive l }

theorem poolStep_view (W : Nat) (s : PoolState E) (t : Nat) : PStep W s t (poolStep W s t) := by
  unfold poolStep
  split
  · rename_i hs
    split
    · rename_i ht
      split
      · rename_i hq
        exact .same (Or.inl ⟨hs, fun _ => hq⟩)
      · rename_i k q hq
        exact .takeIdle k q hs ht hq
    · rename_i ht
      exact .same (Or.inl ⟨hs, fun h => absurd h ht⟩)
  · rename_i _ tag rest hs; exact .bodyDone _ _ _ hs
  · rename_i τ tag e rest hs
    unfold poolRaise
    split
    · exact .throwTask _ _ _ _ _ _ _ hs
    · exact .throwOwn _ _ _ _ _ _ _ hs
    · rename_i h1 h2
      exact .throwOut _ _ _ _ (fun τ' l todo r h => h1 _ _ _ _ h) (fun τ' l todo r h => h2 _ _ _ _ h) hs
  · rename_i hs; exact .emptyLoop _ _ _ _ _ hs
  · rename_i hs; exact .start _ _ _ _ _ _ (List.cons_ne_nil _ _) hs
  · rename_i hs; exact .fetch _ _ _ _ _ _ hs
  · rename_i hs; exact .push _ _ _ _ _ _ _ hs
  · rename_i hs; exact .submitted _ _ _ _ _ hs
  · rename_i hs; exact .ownStart _ _ _ _ _ hs
  · rename_i τ l rest hs
    by_cases ht : t < W
    · rw [if_pos ht]; exact .ownEndW _ _ _ ht hs
    · rw [if_neg ht]; exact .ownEndU _ _ _ ht hs
  · rename_i τ l rest hs
    cases hq : s.queues t with
    | nil => exact .pollCheck _ _ _ hq hs
    | cons k q => exact .pollTake _ _ _ (by rw [hq]; exact List.cons_ne_nil _ _) hs
  · rename_i τ l rest hs
    split
    · rename_i hq
      exact .same (Or.inr (Or.inl ⟨τ, l, rest, hs, hq⟩))
    · rename_i k q hq
      exact .takeLocal _ _ _ _ _ hq hs
  · rename_i τ l rest hs
    by_cases hl : s.latch l = 0
    · rw [if_pos hl]
      unfold poolReturn
      cases he : s.exc l with
      | none => exact .retOk _ _ _ hl he hs
      | some e => exact .retThrow _ _ _ _ hl he hs
    · rw [if_neg hl]
      split
      · rename_i ht
        exact .pollWait _ _ _ ht hl hs
      · rename_i ht
        exact .same (Or.inr (Or.inr ⟨τ, l, rest, hs, hl, ht⟩))
  · rename_i hs; exact .taskStart _ _ _ _ _ hs
  · rename_i hs; exact .taskEnd _ _ _ hs

/-! ## Sums -/

def sumTo (n : Nat) (f : Nat → Nat) : Nat := ((List.range n).map f).sum

theorem sumTo_succ (n : Nat) (f : Nat → Nat) : sumTo (n + 1) f = sumTo n f + f n := by
  unfold sumTo
  rw [List.range_succ, List.map_append, List.sum_append]
  simp

theorem sumTo_congr {n : Nat} {f g : Nat → Nat} (h : ∀ i < n, f i = g i) : sumTo n f = sumTo n g := by
  unfold sumTo
  rw [List.map_congr_left (fun i hi => h i (List.mem_range.1 hi))]

theorem le_sumTo {n : Nat} {f : Nat → Nat} {i : Nat} (hi : i < n) : f i ≤ sumTo n f := by
  induction n with
  | zero => omega
  | succ n ih =>
    rw [sumTo_succ]
    rcases Nat.lt_succ_iff_lt_or_eq.1 hi with h | h
    · have := ih h; omega
    · subst h; omega

theorem sumTo_pos {n : Nat} {f : Nat → Nat} (h : 0 < sumTo n f) : ∃ i < n, 0 < f i := by
  induction n with
  | zero => simp [sumTo] at h
  | succ n ih =>
    rw [sumTo_succ] at h
    by_cases hf : 0 < f n
    · exact ⟨n, by omega, hf⟩
    · obtain ⟨i, hi, h'⟩ := ih (by omega)
      exact ⟨i, by omega, h'⟩

theorem sumTo_upd {β : Type} {n : Nat} (F : β → Nat) (f : Nat → β) (t : Nat) (v : β) (ht : t < n) :
    sumTo n (fun i => F (upd f t v i)) + F (f t) = sumTo n (fun i => F (f i)) + F v := by
  induction n with
  | zero => omega
  | succ n ih =>
    rw [sumTo_succ, sumTo_succ]
    rcases Nat.lt_succ_iff_lt_or_eq.1 ht with h | h
    · have := ih h
      rw [upd_ne _ _ (by omega : n ≠ t)]
      omega
    · subst h
      have : sumTo t (fun i => F (upd f t v i)) = sumTo t (fun i => F (f i)) :=
        sumTo_congr (fun i hi => by rw [upd_ne _ _ (by omega)])
      rw [this, upd_same]
      omega

/-- The sum of weights of all calls and queued tasks. -/
def wsum (T W : Nat) (f : PoolFrame E → Nat) (g : PoolTask E → Nat) (calls : Nat → List (PoolCall E))
    (queues : Nat → List (PoolTask E)) : Nat :=
  sumTo T (fun t => ((calls t).map (fun c => f c.frame)).sum) + sumTo W (fun w => ((queues w).map g).sum)

theorem wsum_calls {T W : Nat} (f : PoolFrame E → Nat) (g : PoolTask E → Nat) (calls : Nat → List (PoolCall E))
    (queues : Nat → List (PoolTask E)) {t : Nat} (ht : t < T) (new : List (PoolCall E)) :
    wsum T W f g (upd calls t new) queues + ((calls t).map (fun c => f c.frame)).sum =
      wsum T W f g calls queues + (new.map (fun c => f c.frame)).sum := by
  have := sumTo_upd (fun l => (l.map (fun c : PoolCall E => f c.frame)).sum) calls t new ht
  unfold wsum
  omega

theorem wsum_queues {T W : Nat} (f : PoolFrame E → Nat) (g : PoolTask E → Nat) (calls : Nat → List (PoolCall E))
    (queues : Nat → List (PoolTask E)) {w : Nat} (hw : w < W) (new : List (PoolTask E)) :
    wsum T W f g calls (upd queues w new) + ((queues w).map g).sum = wsum T W f g calls queues + (new.map g).sum := by
  have := sumTo_upd (fun l => (l.map g).sum) queues w new hw
  unfold wsum
  omega

theorem wsum_pos {T W : Nat} {f : PoolFrame E → Nat} {g : PoolTask E → Nat} {calls : Nat → List (PoolCall E)}
    {queues : Nat → List (PoolTask E)} (h : 0 < wsum T W f g calls queues) :
    (∃ t < T, ∃ c ∈ calls t, 0 < f c.frame) ∨ (∃ w < W, ∃ k ∈ queues w, 0 < g k) := by
  have hlist : ∀ {γ : Type} (F : γ → Nat) (l : List γ), 0 < (l.map F).sum → ∃ x ∈ l, 0 < F x := by
    intro γ F l hl
    by_contra hc
    have : (l.map F).sum = 0 := by
      rw [List.sum_eq_zero_iff_forall_eq_nat]
      intro x hx
      obtain ⟨y, hy, rfl⟩ := List.mem_map.1 hx
      by_contra hne
      exact hc ⟨y, hy, Nat.pos_of_ne_zero hne⟩
    omega
  unfold wsum at h
  rcases Nat.eq_zero_or_pos (sumTo T (fun t => ((calls t).map (fun c => f c.frame)).sum)) with h0 | h0
  · right
    obtain ⟨w, hw, h'⟩ := sumTo_pos (by omega : 0 < sumTo W (fun w => ((queues w).map g).sum))
    obtain ⟨x, hx, hp⟩ := hlist _ _ h'
    exact ⟨w, hw, x, hx, hp⟩
  · left
    obtain ⟨t, ht, h'⟩ := sumTo_pos h0
    obtain ⟨x, hx, hp⟩ := hlist _ _ h'
    exact ⟨t, ht, x, hx, hp⟩

theorem le_list_sum {γ : Type} (F : γ → Nat) (l : List γ) {x : γ} (hx : x ∈ l) : F x ≤ (l.map F).sum := by
  induction l with
  | nil => cases hx
  | cons y l ih =>
    rw [List.map_cons, List.sum_cons]
    rcases List.mem_cons.1 hx with h | h
    · subst h; omega
    · have := ih h; omega

theorem le_wsum_call {T W : Nat} {f : PoolFrame E → Nat} {g : PoolTask E → Nat} {calls : Nat → List (PoolCall E)}
    {queues : Nat → List (PoolTask E)} {t : Nat} (ht : t < T) {c : PoolCall E} (hc : c ∈ calls t) :
    f c.frame ≤ wsum T W f g calls queues := by
  have h1 := le_list_sum (fun c : PoolCall E => f c.frame) (calls t) hc
  have h2 := le_sumTo (f := fun t => ((calls t).map (fun c => f c.frame)).sum) ht
  unfold wsum
  omega

theorem le_wsum_task {T W : Nat} {f : PoolFrame E → Nat} {g : PoolTask E → Nat} {calls : Nat → List (PoolCall E)}
    {queues : Nat → List (PoolTask E)} {w : Nat} (hw : w < W) {k : PoolTask E} (hk : k ∈ queues w) :
    g k ≤ wsum T W f g calls queues := by
  have h1 := le_list_sum g (queues w) hk
  have h2 := le_sumTo (f := fun w => ((queues w).map g).sum) hw
  unfold wsum
  omega

end Gapp.Model
