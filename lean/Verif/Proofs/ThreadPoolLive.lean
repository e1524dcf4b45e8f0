import Verif.Proofs.ThreadPoolEvents

/-! Progress: some thread can always move, and a fair schedule finishes all loops. -/

namespace Gapp.Model

variable {E : Type}

/-! ## The work that is left -/

mutual
def progCost : PoolProg E → Nat
  | .done => 1
  | .throw _ => 1
  | .loop iters _ next => progCosts iters + progCost next + 5

def progCosts : List (PoolProg E) → Nat
  | [] => 0
  | p :: ps => progCost p + 5 + progCosts ps
end

theorem progCost_pos (p : PoolProg E) : 1 ≤ progCost p := by
  cases p with
  | done => simp [progCost]
  | throw e => simp [progCost]
  | loop iters b next => simp only [progCost]; omega

def itemsCost (xs : List (PoolItem E)) : Nat := (xs.map (fun x => progCost x.2 + 1)).sum

def blocksCost (bs : List (List (PoolItem E))) : Nat := (bs.map (fun b => itemsCost b + 4)).sum

def costF : PoolFrame E → Nat
  | .body _ p => progCost p
  | .submit _ bs own slot => blocksCost bs + itemsCost own + 3 + (if slot.isNone then 1 else 0)
  | .own _ todo => itemsCost todo + 2
  | .wait _ => 1
  | .taking _ => 1
  | .check _ => 1
  | .task _ todo => itemsCost todo + 1

def costG (k : PoolTask E) : Nat := itemsCost k.items + 2

def work (T W : Nat) (s : PoolState E) : Nat := wsum T W costF costG s.calls s.queues

theorem itemsCost_cons (x : PoolItem E) (xs : List (PoolItem E)) : itemsCost (x :: xs) = progCost x.2 + 1 + itemsCost xs := by
  unfold itemsCost; rw [List.map_cons, List.sum_cons]

theorem itemsCost_append (xs ys : List (PoolItem E)) : itemsCost (xs ++ ys) = itemsCost xs + itemsCost ys := by
  unfold itemsCost; rw [List.map_append, List.sum_append]

theorem blocksCost_cons (b : List (PoolItem E)) (bs : List (List (PoolItem E))) :
    blocksCost (b :: bs) = itemsCost b + 4 + blocksCost bs := by
  unfold blocksCost; rw [List.map_cons, List.sum_cons]

theorem blocksCost_eq (bs : List (List (PoolItem E))) : blocksCost bs = itemsCost bs.flatten + 4 * bs.length := by
  induction bs with
  | nil => rfl
  | cons b bs ih =>
    rw [blocksCost_cons, ih, List.flatten_cons, itemsCost_append, List.length_cons]
    omega

theorem progCosts_items (iters : List (PoolProg E)) (k : Nat) :
    itemsCost ((iters.zipIdx k).map (fun x => (x.2, x.1))) + 4 * iters.length = progCosts iters := by
  induction iters generalizing k with
  | nil => simp [itemsCost, progCosts]
  | cons p ps ih =>
    have := ih (k + 1)
    rw [List.zipIdx_cons, List.map_cons, itemsCost_cons, List.length_cons, progCosts]
    simp only at this ⊢
    omega

theorem sum_throwInto_le (e : E) (rest : List (PoolCall E)) :
    ((throwInto e rest).map (fun c => costF c.frame)).sum ≤ (rest.map (fun c => costF c.frame)).sum := by
  unfold throwInto
  split
  · rename_i τ tag p r
    rw [sum1, sum1]
    have := progCost_pos p
    simp only [costF, progCost] at this ⊢
    omega
  · exact Nat.le_refl _

/-- The steps that only wait. -/
inductive PStall (W : Nat) (s : PoolState E) (t : Nat) : PoolState E → Prop
  | same (hstuck : PStuck W s t) : PStall W s t s
  | take (τ l : Nat) (rest : List (PoolCall E)) (hq : s.queues t ≠ []) (hs : s.calls t = ⟨τ, .wait l⟩ :: rest) :
    PStall W s t { s with calls := upd s.calls t (⟨τ, .taking l⟩ :: rest) }
  | check (τ l : Nat) (rest : List (PoolCall E)) (hq : s.queues t = []) (hs : s.calls t = ⟨τ, .wait l⟩ :: rest) :
    PStall W s t { s with calls := upd s.calls t (⟨τ, .check l⟩ :: rest) }
  | wait (τ l : Nat) (rest : List (PoolCall E)) (hl : s.latch l ≠ 0) (hs : s.calls t = ⟨τ, .check l⟩ :: rest) :
    PStall W s t { s with calls := upd s.calls t (⟨τ, .wait l⟩ :: rest) }

theorem work_step {T W : Nat} {s s' : PoolState E} {t : Nat} (h : PInv T W s) (hstep : PStep W s t s') :
    work T W s' < work T W s ∨ (work T W s' = work T W s ∧ PStall W s t s') := by
  have key := wsum_key h costF costG (t := t)
  cases hstep
  case same hstuck => exact Or.inr ⟨rfl, .same hstuck⟩
  case pollTake τ l rest hq hs =>
    refine Or.inr ⟨?_, .take _ _ _ hq hs⟩
    obtain ⟨r, h1, h2⟩ := key _ _ hs
    show wsum T W _ _ (upd s.calls t _) s.queues = wsum T W _ _ s.calls s.queues
    rw [h1, h2, sum1]
    rfl
  case pollCheck τ l rest hq hs =>
    refine Or.inr ⟨?_, .check _ _ _ hq hs⟩
    obtain ⟨r, h1, h2⟩ := key _ _ hs
    show wsum T W _ _ (upd s.calls t _) s.queues = wsum T W _ _ s.calls s.queues
    rw [h1, h2, sum1]
    rfl
  case pollWait τ l rest ht hl hs =>
    refine Or.inr ⟨?_, .wait _ _ _ hl hs⟩
    obtain ⟨r, h1, h2⟩ := key _ _ hs
    show wsum T W _ _ (upd s.calls t _) s.queues = wsum T W _ _ s.calls s.queues
    rw [h1, h2, sum1]
    rfl
  case takeIdle k q hs ht hq =>
    left
    obtain ⟨r, h1, h2⟩ := wsum_splitQ costF costG (Nat.lt_of_lt_of_le ht h.le) ht hs hq
    show wsum T W _ _ (upd s.calls t _) (upd s.queues t q) < wsum T W _ _ s.calls s.queues
    rw [h2, h1]
    simp only [sum1, sum0, costF, costG]
    omega
  case takeLocal k q rest hq hs =>
    left
    have ht : t < W := by have := h.shape t; rw [hs] at this; exact this.1.2.1
    obtain ⟨r, h1, h2⟩ := wsum_splitQ costF costG (Nat.lt_of_lt_of_le ht h.le) ht hs hq
    show wsum T W _ _ (upd s.calls t _) (upd s.queues t q) < wsum T W _ _ s.calls s.queues
    rw [h2, h1]
    simp only [sum1, costF, costG]
    omega
  case push τ l' b bs own q rest hs =>
    left
    have hqW : q % W < W := by have := h.shape t; rw [hs] at this; exact Nat.mod_lt q (this.1.2.1 (List.cons_ne_nil _ _))
    obtain ⟨r, h1, h2⟩ := wsum_splitQ costF costG (h.lt hs) hqW hs rfl
    show wsum T W _ _ (upd s.calls t _) (upd s.queues (q % W) _) < wsum T W _ _ s.calls s.queues
    rw [h2, h1]
    simp only [sum1, sum0, costF, costG, List.map_append, List.sum_append, blocksCost_cons, Option.isNone_none, Option.isNone_some, if_true, Bool.false_eq_true, if_false]
    omega
  case throwTask τ tag e τ' l' todo rest hs =>
    left
    obtain ⟨r, h1, h2⟩ := key _ _ hs
    show wsum T W _ _ (upd s.calls t _) s.queues < wsum T W _ _ s.calls s.queues
    rw [h2, h1]
    have : itemsCost ([] : List (PoolItem E)) = 0 := rfl
    simp only [sum1, costF, progCost, this]; omega
  case throwOwn τ tag e τ' l' todo rest hs =>
    left
    obtain ⟨r, h1, h2⟩ := key _ _ hs
    show wsum T W _ _ (upd s.calls t _) s.queues < wsum T W _ _ s.calls s.queues
    rw [h2, h1]
    have := sum_throwInto_le e rest
    simp only [sum1, costF, progCost] at this ⊢; omega
  case retThrow τ l' e rest _ _ hs =>
    left
    obtain ⟨r, h1, h2⟩ := key _ _ hs
    show wsum T W _ _ (upd s.calls t _) s.queues < wsum T W _ _ s.calls s.queues
    rw [h2, h1]
    have := sum_throwInto_le e rest
    simp only [costF] at this ⊢; omega
  case start τ tag iters b next rest hne hs =>
    left
    obtain ⟨r, h1, h2⟩ := key _ _ hs
    show wsum T W _ _ (upd s.calls t _) s.queues < wsum T W _ _ s.calls s.queues
    rw [h2, h1]
    have h3 := progCosts_items iters 0
    have h4 := loopBlocks_flatten W (b + 1) (iters.zipIdx.map (fun x => (x.2, x.1)))
    have h5 := loopBlocks_length W (b + 1) (iters.zipIdx.map (fun x => (x.2, x.1)))
    have h6 := poolTaskCount_le W (iters.zipIdx.map (fun x => (x.2, x.1))).length (b + 1)
    rw [List.length_map, List.length_zipIdx] at h5 h6
    have h7 : 0 < iters.length := List.length_pos_iff.2 hne
    rw [← h4, itemsCost_append] at h3
    simp only [sum1, costF, blocksCost_eq, Option.isNone_none, if_true, progCost]
    omega
  case fetch τ l' b bs own rest hs =>
    left
    obtain ⟨r, h1, h2⟩ := key _ _ hs
    show wsum T W _ _ (upd s.calls t _) s.queues < wsum T W _ _ s.calls s.queues
    rw [h2, h1]
    simp only [sum1, costF, Option.isNone_none, Option.isNone_some, if_true, Bool.false_eq_true, if_false]; omega
  all_goals
    left
    rename_i hs
    obtain ⟨r, h1, h2⟩ := key _ _ hs
    show wsum T W _ _ (upd s.calls t _) s.queues < wsum T W _ _ s.calls s.queues
    rw [h2, h1]
    simp only [sum1, costF, progCost, itemsCost_cons, progCosts]
    omega

/-! ## A thread that can do something -/

/-- A call that waits for the tasks of loop `l`. -/
def waitsFor : PoolFrame E → Option Nat
  | .wait l => some l
  | .taking l => some l
  | .check l => some l
  | _ => none

/-- Thread `t` can do something useful after at most `d` looks at its queue and its latch. -/
inductive Useful (W : Nat) (s : PoolState E) (t : Nat) : Nat → Prop
  | idle (ht : t < W) (hs : s.calls t = []) (hq : s.queues t ≠ []) : Useful W s t 0
  | active (c : PoolCall E) (rest : List (PoolCall E)) (hs : s.calls t = c :: rest) (hc : waitsFor c.frame = none) : Useful W s t 0
  | taking (τ l : Nat) (rest : List (PoolCall E)) (hs : s.calls t = ⟨τ, .taking l⟩ :: rest) : Useful W s t 0
  | ret (τ l : Nat) (rest : List (PoolCall E)) (hs : s.calls t = ⟨τ, .check l⟩ :: rest) (hl : s.latch l = 0) : Useful W s t 0
  | wait (τ l : Nat) (rest : List (PoolCall E)) (hs : s.calls t = ⟨τ, .wait l⟩ :: rest)
    (hl : s.queues t ≠ [] ∨ s.latch l = 0) : Useful W s t 1
  | check (τ l : Nat) (rest : List (PoolCall E)) (hs : s.calls t = ⟨τ, .check l⟩ :: rest) (hq : s.queues t ≠ []) : Useful W s t 2

theorem useful_self {T W : Nat} {s s' : PoolState E} {t d : Nat} (h : PInv T W s) (hu : Useful W s t d) (hst : PStall W s t s') :
    ∃ d' < d, Useful W s' t d' := by
  cases hst with
  | same hstuck =>
    exfalso
    rcases hstuck with ⟨h1, h2⟩ | ⟨τ, l, rest, h1, h2⟩ | ⟨τ, l, rest, h1, h2, h3⟩
    · cases hu <;> rename_i hs _ <;> simp_all
    · exact h.taking t τ l rest h1 h2
    · cases hu with
      | idle ht => exact h3 ht
      | active c rest' hs hc => rw [h1] at hs; injection hs with hs _; subst hs; cases hc
      | taking _ _ _ hs => rw [h1] at hs; cases hs
      | ret τ' l' rest' hs hl => rw [h1] at hs; cases hs; exact h2 hl
      | wait _ _ _ hs => rw [h1] at hs; cases hs
      | check _ _ _ hs hq => exact hq (h.qout t (by omega))
  | take τ l rest hq hs =>
    have hd : d = 1 := by
      cases hu with
      | idle _ hs' => rw [hs] at hs'; cases hs'
      | active c rest' hs' hc => rw [hs] at hs'; injection hs' with hs' _; subst hs'; cases hc
      | taking _ _ _ hs' => rw [hs] at hs'; cases hs'
      | ret _ _ _ hs' => rw [hs] at hs'; cases hs'
      | wait => rfl
      | check _ _ _ hs' => rw [hs] at hs'; cases hs'
    exact ⟨0, by omega, .taking τ l rest (upd_same _ _ _)⟩
  | check τ l rest hq hs =>
    have hd : d = 1 ∧ s.latch l = 0 := by
      cases hu with
      | idle _ hs' => rw [hs] at hs'; cases hs'
      | active c rest' hs' hc => rw [hs] at hs'; injection hs' with hs' _; subst hs'; cases hc
      | taking _ _ _ hs' => rw [hs] at hs'; cases hs'
      | ret _ _ _ hs' => rw [hs] at hs'; cases hs'
      | wait _ _ _ hs' hl =>
        rw [hs] at hs'; cases hs'
        exact ⟨rfl, hl.resolve_left (fun hn => hn hq)⟩
      | check _ _ _ hs' => rw [hs] at hs'; cases hs'
    exact ⟨0, by omega, .ret τ l rest (upd_same _ _ _) hd.2⟩
  | wait τ l rest hl hs =>
    have hd : d = 2 ∧ s.queues t ≠ [] := by
      cases hu with
      | idle _ hs' => rw [hs] at hs'; cases hs'
      | active c rest' hs' hc => rw [hs] at hs'; injection hs' with hs' _; subst hs'; cases hc
      | taking _ _ _ hs' => rw [hs] at hs'; cases hs'
      | ret _ _ _ hs' hl' => rw [hs] at hs'; cases hs'; exact absurd hl' hl
      | wait _ _ _ hs' => rw [hs] at hs'; cases hs'
      | check _ _ _ hs' hq => exact ⟨rfl, hq⟩
    exact ⟨1, by omega, .wait τ l rest (upd_same _ _ _) (Or.inl hd.2)⟩

theorem useful_other {W : Nat} {s s' : PoolState E} {t u d : Nat} (hu : Useful W s t d) (hst : PStall W s u s') (hne : t ≠ u) :
    Useful W s' t d := by
  have h1 : s'.calls t = s.calls t ∧ s'.queues = s.queues ∧ s'.latch = s.latch := by
    cases hst
    · exact ⟨rfl, rfl, rfl⟩
    all_goals exact ⟨upd_ne _ _ hne, rfl, rfl⟩
  obtain ⟨h1, h2, h3⟩ := h1
  cases hu with
  | idle ht hs hq => exact .idle ht (h1.trans hs) (by rw [h2]; exact hq)
  | active c rest hs hc => exact .active c rest (h1.trans hs) hc
  | taking τ l rest hs => exact .taking τ l rest (h1.trans hs)
  | ret τ l rest hs hl => exact .ret τ l rest (h1.trans hs) (by rw [h3]; exact hl)
  | wait τ l rest hs hl => exact .wait τ l rest (h1.trans hs) (by rw [h2, h3]; exact hl)
  | check τ l rest hs hq => exact .check τ l rest (h1.trans hs) (by rw [h2]; exact hq)

/-- All calls have returned and all tasks have run. -/
def PoolFinished (s : PoolState E) : Prop := (∀ t, s.calls t = []) ∧ ∀ w, s.queues w = []

theorem stackOk_top {W t : Nat} {c : PoolCall E} {rest : List (PoolCall E)} (h : StackOk W t (c :: rest)) {d : PoolCall E}
    (hd : d ∈ c :: rest) : d = c ∨ d.time < c.time := by
  rcases List.mem_cons.1 hd with h' | h'
  · exact Or.inl h'
  · exact Or.inr (h.2.1 d h')

theorem exists_useful {T W : Nat} {s : PoolState E} (h : PInv T W s) (hl : LatchInv T W s) (hnf : ¬ PoolFinished s) :
    ∃ t < T, ∃ d, Useful W s t d := by
  by_contra hno
  have hno : ∀ t d, ¬ Useful W s t d := by
    intro t d hu
    refine hno ⟨t, ?_, d, hu⟩
    cases hu with
    | idle ht => exact Nat.lt_of_lt_of_le ht h.le
    | active c rest hs _ => exact h.lt hs
    | taking τ l rest hs => exact h.lt hs
    | ret τ l rest hs _ => exact h.lt hs
    | wait τ l rest hs _ => exact h.lt hs
    | check τ l rest hs _ => exact h.lt hs
  -- the top call of every thread waits for a loop whose tasks have not ended, and the queue of the thread is empty
  have htop : ∀ t c rest, s.calls t = c :: rest → ∃ l, waitsFor c.frame = some l ∧ c.time = l ∧ s.latch l ≠ 0 ∧ s.queues t = [] := by
    intro t c rest hs
    have hsh := h.shape t
    rw [hs] at hsh
    obtain ⟨τ, f⟩ := c
    cases hw : waitsFor f with
    | none => exact absurd (Useful.active _ _ hs hw) (hno t 0)
    | some l =>
      cases f with
      | body => cases hw
      | submit => cases hw
      | own => cases hw
      | task => cases hw
      | taking l' => exact absurd (Useful.taking _ _ _ hs) (hno t 0)
      | wait l' =>
        cases hw
        have hn := hno t 1
        refine ⟨l, rfl, hsh.1.1, fun h0 => hn (.wait _ _ _ hs (Or.inr h0)), ?_⟩
        by_contra hq
        exact hn (.wait _ _ _ hs (Or.inl hq))
      | check l' =>
        cases hw
        refine ⟨l, rfl, hsh.1.1, fun h0 => hno t 0 (.ret _ _ _ hs h0), ?_⟩
        by_contra hq
        exact hno t 2 (.check _ _ _ hs hq)
  have hq : ∀ w, s.queues w = [] := by
    intro w
    by_cases hw : w < W
    · cases hc : s.calls w with
      | nil =>
        by_contra hne
        exact hno w 0 (.idle hw hc hne)
      | cons c rest =>
        obtain ⟨_, _, _, _, h'⟩ := htop w c rest hc
        exact h'
    · exact h.qout w (by omega)
  -- there is no newest waiting call
  have hasc : ∀ k t c rest, s.calls t = c :: rest → s.clock - c.time ≤ k → False := by
    intro k
    induction k with
    | zero =>
      intro t c rest hs hk
      have := h.times t c (by rw [hs]; exact List.mem_cons_self)
      omega
    | succ k ih =>
      intro t c rest hs hk
      obtain ⟨l, _, hcl, hlat, _⟩ := htop t c rest hs
      have hpos : 0 < wsum T W (tasksF l) (tasksG l) s.calls s.queues := by rw [← hl l]; omega
      rcases wsum_pos hpos with ⟨u, _, d, hd, hp⟩ | ⟨w, _, x, hx, _⟩
      · cases hu : s.calls u with
        | nil => rw [hu] at hd; cases hd
        | cons c' rest' =>
          rw [hu] at hd
          have hsh := h.shape u
          rw [hu] at hsh
          obtain ⟨l', hw', hc', _, _⟩ := htop u c' rest' hu
          have htime : l < c'.time := by
            obtain ⟨r'', hok, _⟩ := stackOk_mem hsh hd
            obtain ⟨τ, f⟩ := d
            cases f with
            | task l'' todo =>
              have h1 : l'' = l := same_pos hp
              have h2 : l'' < τ := hok.1
              rcases stackOk_top hsh hd with h3 | h3
              · subst h3; cases hw'
              · simp only at h3; omega
            | submit l'' bs own slot =>
              have h1 : l'' = l := by
                refine same_pos (Nat.pos_of_ne_zero (fun h0 => ?_))
                simp only [tasksF, h0, Nat.zero_mul] at hp
                omega
              have h2 : τ = l'' := hok.1
              rcases stackOk_top hsh hd with h3 | h3
              · subst h3; cases hw'
              · simp only at h3; omega
            | body => simp [tasksF] at hp
            | own => simp [tasksF] at hp
            | wait => simp [tasksF] at hp
            | taking => simp [tasksF] at hp
            | check => simp [tasksF] at hp
          have h4 := h.times u c' (by rw [hu]; exact List.mem_cons_self)
          exact ih u c' rest' hu (by omega)
      · rw [hq w] at hx; cases hx
  refine hnf ⟨fun t => ?_, hq⟩
  cases hc : s.calls t with
  | nil => rfl
  | cons c rest => exact (hasc _ t c rest hc (Nat.le_refl _)).elim

/-! ## Fair schedules -/

/-- The first `n` choices of a schedule. -/
def schedule (σ : Nat → Nat) (n : Nat) : List Nat := (List.range n).map σ

theorem schedule_succ (σ : Nat → Nat) (n : Nat) : schedule σ (n + 1) = schedule σ n ++ [σ n] := by
  unfold schedule
  rw [List.range_succ, List.map_append]
  rfl

theorem useful_next {W : Nat} {progs : List (PoolProg E)} {σ : Nat → Nat} {t d : Nat} (gap : Nat) : ∀ n,
    σ (n + gap) = t → Useful W (poolRun W progs (schedule σ n)) t d →
    ∃ m, work (W + progs.length) W (poolRun W progs (schedule σ m)) < work (W + progs.length) W (poolRun W progs (schedule σ n)) ∨
      (n ≤ m ∧ work (W + progs.length) W (poolRun W progs (schedule σ m)) = work (W + progs.length) W (poolRun W progs (schedule σ n)) ∧
        ∃ d' < d, Useful W (poolRun W progs (schedule σ m)) t d') := by
  induction gap with
  | zero =>
    intro n hn hu
    have hinv := pinv_run W progs (schedule σ n)
    have hstep := poolStep_view W (poolRun W progs (schedule σ n)) (σ n)
    rw [← poolRun_snoc, ← schedule_succ] at hstep
    rw [Nat.add_zero] at hn
    refine ⟨n + 1, ?_⟩
    rcases work_step hinv hstep with h | ⟨h, hst⟩
    · exact Or.inl h
    · rw [hn] at hst
      exact Or.inr ⟨Nat.le_succ n, h, useful_self hinv hu hst⟩
  | succ gap ih =>
    intro n hn hu
    have hinv := pinv_run W progs (schedule σ n)
    have hstep := poolStep_view W (poolRun W progs (schedule σ n)) (σ n)
    rw [← poolRun_snoc, ← schedule_succ] at hstep
    rcases work_step hinv hstep with h | ⟨h, hst⟩
    · exact ⟨n + 1, Or.inl h⟩
    · by_cases hnt : σ n = t
      · rw [hnt] at hst
        exact ⟨n + 1, Or.inr ⟨Nat.le_succ n, h, useful_self hinv hu hst⟩⟩
      · have hu' := useful_other hu hst (fun h => hnt h.symm)
        obtain ⟨m, hm⟩ := ih (n + 1) (by rw [← hn]; congr 1; omega) hu'
        refine ⟨m, ?_⟩
        rw [h] at hm
        rcases hm with hm | ⟨h1, h2, h3⟩
        · exact Or.inl hm
        · exact Or.inr ⟨by omega, h2, h3⟩

theorem useful_dec {W : Nat} {progs : List (PoolProg E)} {σ : Nat → Nat} {t : Nat} (hfair : ∀ n, ∃ m, n ≤ m ∧ σ m = t) (d : Nat) : ∀ n,
    Useful W (poolRun W progs (schedule σ n)) t d →
    ∃ m, work (W + progs.length) W (poolRun W progs (schedule σ m)) < work (W + progs.length) W (poolRun W progs (schedule σ n)) := by
  induction d using Nat.strong_induction_on with
  | _ d ih =>
    intro n hu
    obtain ⟨k, hk, hσ⟩ := hfair n
    obtain ⟨m, h | ⟨_, h2, d', hd', hu'⟩⟩ := useful_next (k - n) n (by rw [← hσ]; congr 1; omega) hu
    · exact ⟨m, h⟩
    · obtain ⟨m', h'⟩ := ih d' hd' m hu'
      exact ⟨m', by rw [← h2]; exact h'⟩

theorem fair_finishes {W : Nat} {progs : List (PoolProg E)} {σ : Nat → Nat}
    (hfair : ∀ t < W + progs.length, ∀ n, ∃ m, n ≤ m ∧ σ m = t) : ∃ n, PoolFinished (poolRun W progs (schedule σ n)) := by
  have main : ∀ k n, work (W + progs.length) W (poolRun W progs (schedule σ n)) ≤ k → ∃ n, PoolFinished (poolRun W progs (schedule σ n)) := by
    intro k
    induction k with
    | zero =>
      intro n hn
      by_contra hc
      have hinv := poolInv_run W progs (schedule σ n)
      obtain ⟨t, ht, d, hu⟩ := exists_useful hinv.shape hinv.latch (fun hf => hc ⟨n, hf⟩)
      obtain ⟨m, hm⟩ := useful_dec (hfair t ht) d n hu
      omega
    | succ k ih =>
      intro n hn
      by_contra hc
      have hinv := poolInv_run W progs (schedule σ n)
      obtain ⟨t, ht, d, hu⟩ := exists_useful hinv.shape hinv.latch (fun hf => hc ⟨n, hf⟩)
      obtain ⟨m, hm⟩ := useful_dec (hfair t ht) d n hu
      exact hc (ih m (by omega))
  exact main _ 0 (Nat.le_refl _)

theorem finished_stays {W : Nat} {s : PoolState E} (h : PoolFinished s) (t : Nat) : poolStep W s t = s := by
  unfold poolStep
  rw [h.1 t]
  simp only [h.2 t]
  split <;> rfl

end Gapp.Model
