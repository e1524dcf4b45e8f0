import Verif.Proofs.ThreadPoolCount

/-! Exceptions, results and lifetimes. -/

namespace Gapp.Model

variable {E : Type}

structure EvInv (s : PoolState E) : Prop where
  startedClk : ∀ l i, (l, i) ∈ s.started → l < s.clock
  skippedClk : ∀ l i, (l, i) ∈ s.skipped → l < s.clock
  thrownClk : ∀ l e, (l, e) ∈ s.thrown → l < s.clock
  returnedClk : ∀ l r, (l, r) ∈ s.returned → l < s.clock
  earlyClk : ∀ l, l ∈ s.leftEarly → l < s.clock
  skipThrown : ∀ l i, (l, i) ∈ s.skipped → ∃ e, (l, e) ∈ s.thrown
  kept : ∀ l e, (l, e) ∈ s.thrown → s.exc l ≠ none ∨ s.alive l = false
  excThrown : ∀ l e, s.exc l = some e → (l, e) ∈ s.thrown
  retNone : ∀ l, (l, none) ∈ s.returned → s.latch l = 0 ∧ ∀ e, (l, e) ∉ s.thrown
  retSome : ∀ l e, (l, some e) ∈ s.returned → (l, e) ∈ s.thrown ∧ (s.latch l = 0 ∨ l ∈ s.leftEarly)
  retDead : ∀ l r, (l, r) ∈ s.returned → s.alive l = false
  retOnce : (s.returned.map (·.1)).Nodup
  early : ∀ l, l ∈ s.leftEarly → ∃ e, (l, some e) ∈ s.returned
  dead : ∀ l, s.alive l = false → s.latch l = 0 ∨ l ∈ s.leftEarly
  fail : s.failed = true → s.leftEarly ≠ []
  sizeClk : ∀ l, 0 < s.size l → l < s.clock
  created : ∀ l, 0 < s.size l → s.alive l = true ∨ ∃ r, (l, r) ∈ s.returned

theorem latch_of_task {T W : Nat} {s : PoolState E} {t : Nat} (h : PInv T W s) (hi : LatchInv T W s) {τ l : Nat}
    {todo : List (PoolItem E)} (hc : ⟨τ, .task l todo⟩ ∈ s.calls t) : 0 < s.latch l := by
  have ht : t < T := by
    by_contra hn
    rw [h.out t (by omega)] at hc
    cases hc
  have := le_wsum_call (f := tasksF l) (g := tasksG l) (W := W) (queues := s.queues) ht hc
  rw [← hi l] at this
  simp only [tasksF, same_self] at this
  omega

theorem alive_of_own {T W : Nat} {s : PoolState E} {t : Nat} (h : PInv T W s) (hi : OwnerInv T W s) {τ l : Nat}
    {todo : List (PoolItem E)} (hc : ⟨τ, .own l todo⟩ ∈ s.calls t) : s.alive l = true := by
  have ht : t < T := by
    by_contra hn
    rw [h.out t (by omega)] at hc
    cases hc
  have := le_wsum_call (f := earlyF l) (g := fun _ => 0) (W := W) (queues := s.queues) ht hc
  have h2 := hi l
  simp only [earlyF, same_self] at this
  by_contra hn
  rw [if_neg hn] at h2
  omega

theorem alive_of_check {T W : Nat} {s : PoolState E} {t : Nat} (h : PInv T W s) (hi : OwnerInv T W s) {τ l : Nat}
    (hc : ⟨τ, .check l⟩ ∈ s.calls t) : s.alive l = true := by
  have ht : t < T := by
    by_contra hn
    rw [h.out t (by omega)] at hc
    cases hc
  have := le_wsum_call (f := lateF l) (g := fun _ => 0) (W := W) (queues := s.queues) ht hc
  have h2 := hi l
  simp only [lateF, same_self] at this
  by_contra hn
  rw [if_neg hn] at h2
  omega

theorem ev_step {T W : Nat} {s s' : PoolState E} {t : Nat} (h : PInv T W s) (hl : LatchInv T W s) (ho : OwnerInv T W s)
    (hi : EvInv s) (hstep : PStep W s t s') : EvInv s' := by
  obtain ⟨i1, i2, i3, i4, i5, i6, i7, i8, i9, i10, i11, i12, i13, i14, i15, i16, i17⟩ := hi
  cases hstep
  case same => exact ⟨i1, i2, i3, i4, i5, i6, i7, i8, i9, i10, i11, i12, i13, i14, i15, i16, i17⟩
  case throwTask τ tag e τ' l todo rest hs =>
    have hlt := (frame_loop_le h (t := t) (c := ⟨τ', .task l todo⟩) (by rw [hs]; simp)).2.2.2.2.2.1 l todo rfl
    have hlat := latch_of_task h hl (t := t) (τ := τ') (todo := todo) (l := l) (by rw [hs]; simp)
    clear hs h hl ho
    cases hx : s.exc l <;> refine ⟨?_, ?_, ?_, ?_, ?_, ?_, ?_, ?_, ?_, ?_, ?_, ?_, ?_, ?_, ?_, ?_, ?_⟩ <;> dsimp only <;> grind [upd]
  case throwOwn τ tag e τ' l todo rest hs =>
    have hlt := (frame_loop_le h (t := t) (c := ⟨τ', .own l todo⟩) (by rw [hs]; simp)).2.1 l todo rfl
    have hal := alive_of_own h ho (t := t) (τ := τ') (todo := todo) (l := l) (by rw [hs]; simp)
    clear hs h hl ho
    refine ⟨?_, ?_, ?_, ?_, ?_, ?_, ?_, ?_, ?_, ?_, ?_, ?_, ?_, ?_, ?_, ?_, ?_⟩ <;> dsimp only <;> grind [upd]
  case start τ tag iters b next rest hne hs =>
    clear hs h hl ho
    unfold poolStart
    refine ⟨?_, ?_, ?_, ?_, ?_, ?_, ?_, ?_, ?_, ?_, ?_, ?_, ?_, ?_, ?_, ?_, ?_⟩ <;> dsimp only <;> grind [upd]
  case ownStart τ l i todo rest hs =>
    have hlt := (frame_loop_le h (t := t) (c := ⟨τ, .own l (i :: todo)⟩) (by rw [hs]; simp)).2.1 l _ rfl
    clear hs h hl ho
    refine ⟨?_, ?_, ?_, ?_, ?_, ?_, ?_, ?_, ?_, ?_, ?_, ?_, ?_, ?_, ?_, ?_, ?_⟩ <;> dsimp only <;> grind [upd]
  case retOk τ l rest hlat he hs =>
    have hlt := (frame_loop_le h (t := t) (c := ⟨τ, .check l⟩) (by rw [hs]; simp)).2.2.2.2.1 l rfl
    have hal := alive_of_check h ho (t := t) (τ := τ) (l := l) (by rw [hs]; simp)
    clear hs h hl ho
    refine ⟨?_, ?_, ?_, ?_, ?_, ?_, ?_, ?_, ?_, ?_, ?_, ?_, ?_, ?_, ?_, ?_, ?_⟩ <;> dsimp only <;> grind [upd]
  case retThrow τ l e rest hlat he hs =>
    have hlt := (frame_loop_le h (t := t) (c := ⟨τ, .check l⟩) (by rw [hs]; simp)).2.2.2.2.1 l rfl
    have hal := alive_of_check h ho (t := t) (τ := τ) (l := l) (by rw [hs]; simp)
    clear hs h hl ho
    refine ⟨?_, ?_, ?_, ?_, ?_, ?_, ?_, ?_, ?_, ?_, ?_, ?_, ?_, ?_, ?_, ?_, ?_⟩ <;> dsimp only <;> grind [upd]
  case taskStart τ l i todo rest hs =>
    have hlt := (frame_loop_le h (t := t) (c := ⟨τ, .task l (i :: todo)⟩) (by rw [hs]; simp)).2.2.2.2.2.1 l _ rfl
    have hlat := latch_of_task h hl (t := t) (τ := τ) (todo := i :: todo) (l := l) (by rw [hs]; simp)
    clear hs h hl ho
    refine ⟨?_, ?_, ?_, ?_, ?_, ?_, ?_, ?_, ?_, ?_, ?_, ?_, ?_, ?_, ?_, ?_, ?_⟩ <;> dsimp only <;> grind [upd]
  case taskEnd τ l rest hs =>
    have hlat := latch_of_task h hl (t := t) (τ := τ) (todo := []) (l := l) (by rw [hs]; simp)
    clear hs h hl ho
    refine ⟨?_, ?_, ?_, ?_, ?_, ?_, ?_, ?_, ?_, ?_, ?_, ?_, ?_, ?_, ?_, ?_, ?_⟩ <;> dsimp only <;> grind [upd]
  all_goals
    clear h hl ho
    refine ⟨?_, ?_, ?_, ?_, ?_, ?_, ?_, ?_, ?_, ?_, ?_, ?_, ?_, ?_, ?_, ?_, ?_⟩ <;> dsimp only <;> first | assumption | grind

/-- Everything that is proved about a reachable state. -/
structure PoolInv (T W : Nat) (s : PoolState E) : Prop where
  shape : PInv T W s
  latch : LatchInv T W s
  owner : OwnerInv T W s
  pend : PendInv T W s
  run : RunInv T W s
  ev : EvInv s

theorem poolInv_step {T W : Nat} {s s' : PoolState E} {t : Nat} (h : PoolInv T W s) (hstep : PStep W s t s') : PoolInv T W s' := by
  refine ⟨pinv_step h.shape hstep, latch_step h.shape h.latch hstep, owner_step h.shape h.owner hstep,
    pend_step h.shape h.pend (fun l hl i => ?_) hstep, run_step h.shape h.run hstep, ev_step h.shape h.latch h.owner h.ev hstep⟩
  constructor
  · exact List.count_eq_zero_of_not_mem (fun hm => by have := h.ev.startedClk l i hm; omega)
  · exact List.count_eq_zero_of_not_mem (fun hm => by have := h.ev.skippedClk l i hm; omega)

theorem poolInit_calls (W : Nat) (progs : List (PoolProg E)) (t : Nat) {c : PoolCall E} (hc : c ∈ (poolInit W progs).calls t) :
    ∃ p, c = ⟨0, .body none p⟩ := by
  have hc : c ∈ (if t < W then [] else match progs[t - W]? with
    | none => []
    | some p => [⟨0, .body none p⟩]) := hc
  split at hc
  · cases hc
  · cases hp : progs[t - W]? with
    | none => rw [hp] at hc; cases hc
    | some p => rw [hp] at hc; exact ⟨p, List.mem_singleton.1 hc⟩

theorem poolInv_init (W : Nat) (progs : List (PoolProg E)) : PoolInv (W + progs.length) W (poolInit W progs) := by
  have h := pinv_init W progs
  have hz : ∀ (f : PoolFrame E → Nat) (g : PoolTask E → Nat), (∀ p, f (.body none p) = 0) →
      wsum (W + progs.length) W f g (poolInit W progs).calls (poolInit W progs).queues = 0 := by
    intro f g hf
    refine fresh_sum h (fun t c hc => ?_) (fun w k hk => (by cases hk))
    obtain ⟨p, rfl⟩ := poolInit_calls W progs t hc
    exact hf p
  refine ⟨h, fun l => ?_, fun l => ?_, fun l i => ?_, fun l i => ?_, ?_⟩
  · rw [hz _ _ (fun _ => rfl)]; rfl
  · rw [hz _ _ (fun _ => rfl), hz _ _ (fun _ => rfl)]; rfl
  · rw [hz _ _ (fun _ => rfl)]; rfl
  · rw [hz _ _ (fun _ => rfl)]; rfl
  · constructor <;> simp [poolInit]

theorem poolInv_run (W : Nat) (progs : List (PoolProg E)) (es : List Nat) :
    PoolInv (W + progs.length) W (poolRun W progs es) := by
  induction es using Gapp.ListAux.snoc_induction with
  | nil => exact poolInv_init W progs
  | append_singleton es t ih =>
    rw [poolRun_snoc]
    exact poolInv_step ih (poolStep_view W _ t)

/-! ## Turns -/

/-- A task whose turn is `n` is being submitted. -/
def turnF (n : Nat) : PoolFrame E → Nat
  | .submit _ _ _ (some n') => same n' n
  | _ => 0

/-- Every turn was used once, for the queue with its number modulo the number of workers. -/
structure TurnInv (T W : Nat) (s : PoolState E) : Prop where
  once : ∀ n, (s.submitted.map (·.1)).count n + wsum T W (turnF n) (fun _ => 0) s.calls s.queues = if n < s.turn then 1 else 0
  queue : ∀ n q l, (n, q, l) ∈ s.submitted → q = n % W

theorem turn_step {T W : Nat} {s s' : PoolState E} {t : Nat} (h : PInv T W s) (hi : TurnInv T W s) (hstep : PStep W s t s') :
    TurnInv T W s' := by
  refine ⟨fun n => ?_, ?_⟩
  · have hl := hi.once n
    have hbc : BodyConst (E := E) (turnF n) := fun _ _ _ => rfl
    have key := wsum_key h (turnF n) (fun _ => 0) (t := t)
    cases hstep
    case same => exact hl
    case takeIdle k q hs ht hq =>
      obtain ⟨r, h1, h2⟩ := wsum_splitQ (turnF n) (fun _ => 0) (Nat.lt_of_lt_of_le ht h.le) ht hs hq
      show _ + wsum T W _ _ (upd s.calls t _) (upd s.queues t q) = if n < s.turn then 1 else 0
      rw [h2, ← hl, h1]
      simp only [sum1, sum0, turnF]
      omega
    case takeLocal k q rest hq hs =>
      have ht : t < W := by have := h.shape t; rw [hs] at this; exact this.1.2.1
      obtain ⟨r, h1, h2⟩ := wsum_splitQ (turnF n) (fun _ => 0) (Nat.lt_of_lt_of_le ht h.le) ht hs hq
      show _ + wsum T W _ _ (upd s.calls t _) (upd s.queues t q) = if n < s.turn then 1 else 0
      rw [h2, ← hl, h1]
      simp only [sum1, sum0, turnF]
      omega
    case push τ l' b bs own q rest hs =>
      have hqW : q % W < W := by have := h.shape t; rw [hs] at this; exact Nat.mod_lt q (this.1.2.1 (List.cons_ne_nil _ _))
      obtain ⟨r, h1, h2⟩ := wsum_splitQ (turnF n) (fun _ => 0) (h.lt hs) hqW hs rfl
      show ((q :: s.submitted.map (·.1)).count n) + wsum T W _ _ (upd s.calls t _) (upd s.queues (q % W) _) = if n < s.turn then 1 else 0
      rw [h2, ← hl, h1, List.count_cons]
      simp only [sum1, sum0, turnF, List.map_append, List.sum_append, same, beq_iff_eq]
      omega
    case fetch τ l' b bs own rest hs =>
      obtain ⟨r, h1, h2⟩ := key _ _ hs
      show _ + wsum T W _ _ (upd s.calls t _) s.queues = if n < s.turn + 1 then 1 else 0
      rw [h2]
      rw [h1] at hl
      simp only [sum1, turnF] at hl ⊢
      by_cases hn : s.turn = n
      · rw [hn, same_self]
        rw [hn] at hl
        rw [if_neg (Nat.lt_irrefl _)] at hl
        rw [if_pos (Nat.lt_succ_self _)]
        omega
      · rw [same_ne hn]
        by_cases hlt : n < s.turn
        · rw [if_pos hlt] at hl
          rw [if_pos (by omega)]
          omega
        · rw [if_neg hlt] at hl
          rw [if_neg (by omega)]
          omega
    case throwOwn τ tag e τ' l' todo rest hs =>
      obtain ⟨r, h1, h2⟩ := key _ _ hs
      show _ + wsum T W _ _ (upd s.calls t _) s.queues = if n < s.turn then 1 else 0
      rw [h2, ← hl, h1, sum_throwInto hbc]
      simp only [sum1, turnF]; omega
    case retThrow hs =>
      obtain ⟨r, h1, h2⟩ := key _ _ hs
      show _ + wsum T W _ _ (upd s.calls t _) s.queues = if n < s.turn then 1 else 0
      rw [h2, ← hl, h1, sum_throwInto hbc]
      simp only [turnF]; omega
    case submitted τ l own slot rest hs =>
      have hsl : slot = none := by have := h.shape t; rw [hs] at this; exact this.1.2.2.1 rfl
      subst hsl
      obtain ⟨r, h1, h2⟩ := key _ _ hs
      show _ + wsum T W _ _ (upd s.calls t _) s.queues = if n < s.turn then 1 else 0
      rw [h2, ← hl, h1]
      simp only [sum1, turnF]
    all_goals
      rename_i hs
      obtain ⟨r, h1, h2⟩ := key _ _ hs
      show (s.submitted.map (·.1)).count n + wsum T W _ _ (upd s.calls t _) s.queues = if n < s.turn then 1 else 0
      rw [h2, ← hl, h1]
      simp only [sum1, turnF]
      try omega
  · intro n q l hm
    cases hstep
    case push τ l' b bs own q' rest hs =>
      rcases List.mem_cons.1 hm with hm | hm
      · cases hm; rfl
      · exact hi.queue n q l hm
    all_goals exact hi.queue n q l hm

theorem turn_run (W : Nat) (progs : List (PoolProg E)) (es : List Nat) :
    TurnInv (W + progs.length) W (poolRun W progs es) := by
  induction es using Gapp.ListAux.snoc_induction with
  | nil =>
    refine ⟨fun n => ?_, fun n q l hm => (by cases hm)⟩
    have h : wsum (W + progs.length) W (turnF n) (fun _ => 0) (poolRun W progs []).calls (poolRun W progs []).queues = 0 := by
      refine fresh_sum (pinv_init W progs) (fun t c hc => ?_) (fun w k hk => (by cases hk))
      obtain ⟨p, rfl⟩ := poolInit_calls W progs t hc
      rfl
    rw [h]
    rfl
  | append_singleton es t ih =>
    rw [poolRun_snoc]
    exact turn_step (pinv_run W progs es) ih (poolStep_view W _ t)

end Gapp.Model
