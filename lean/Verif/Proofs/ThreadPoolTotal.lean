import Verif.Proofs.ThreadPoolLive

/-! The total number of iterations. -/

namespace Gapp.Model

variable {E : Type}

mutual
/-- The number of loop iterations a program asks for. -/
def progIters : PoolProg E → Nat
  | .done => 0
  | .throw _ => 0
  | .loop iters _ next => progItersL iters + progIters next

def progItersL : List (PoolProg E) → Nat
  | [] => 0
  | p :: ps => progIters p + 1 + progItersL ps
end

def itemsIters (xs : List (PoolItem E)) : Nat := (xs.map (fun x => progIters x.2 + 1)).sum

theorem itemsIters_cons (x : PoolItem E) (xs : List (PoolItem E)) : itemsIters (x :: xs) = progIters x.2 + 1 + itemsIters xs := by
  unfold itemsIters; rw [List.map_cons, List.sum_cons]

theorem itemsIters_append (xs ys : List (PoolItem E)) : itemsIters (xs ++ ys) = itemsIters xs + itemsIters ys := by
  unfold itemsIters; rw [List.map_append, List.sum_append]

theorem itemsIters_zip (iters : List (PoolProg E)) (k : Nat) :
    itemsIters ((iters.zipIdx k).map (fun x => (x.2, x.1))) = progItersL iters := by
  induction iters generalizing k with
  | nil => simp [itemsIters, progItersL]
  | cons p ps ih =>
    rw [List.zipIdx_cons, List.map_cons, itemsIters_cons, progItersL, ih]

def itersF : PoolFrame E → Nat
  | .body _ p => progIters p
  | .submit _ bs own _ => itemsIters (bs.flatten ++ own)
  | .own _ todo => itemsIters todo
  | .task _ todo => itemsIters todo
  | _ => 0

def itersG (k : PoolTask E) : Nat := itemsIters k.items

def itersLeft (T W : Nat) (s : PoolState E) : Nat := wsum T W itersF itersG s.calls s.queues

theorem itersLeft_step {T W : Nat} {s s' : PoolState E} {t : Nat} (h : PInv T W s) (hev : EvInv s) (hstep : PStep W s t s')
    (hth : s'.thrown = []) : s'.started.length + itersLeft T W s' = s.started.length + itersLeft T W s := by
  have key := wsum_key h itersF itersG (t := t)
  unfold itersLeft
  have hnil : itemsIters ([] : List (PoolItem E)) = 0 := rfl
  cases hstep
  case same => rfl
  case takeIdle k q hs ht hq =>
    obtain ⟨r, h1, h2⟩ := wsum_splitQ itersF itersG (Nat.lt_of_lt_of_le ht h.le) ht hs hq
    show _ + wsum T W _ _ (upd s.calls t _) (upd s.queues t q) = _
    rw [h2, h1]
    simp only [sum1, sum0, itersF, itersG]
    omega
  case takeLocal k q rest hq hs =>
    have ht : t < W := by have := h.shape t; rw [hs] at this; exact this.1.2.1
    obtain ⟨r, h1, h2⟩ := wsum_splitQ itersF itersG (Nat.lt_of_lt_of_le ht h.le) ht hs hq
    show _ + wsum T W _ _ (upd s.calls t _) (upd s.queues t q) = _
    rw [h2, h1]
    simp only [sum1, itersF, itersG]
    omega
  case push τ l' b bs own q rest hs =>
    have hqW : q % W < W := by have := h.shape t; rw [hs] at this; exact Nat.mod_lt q (this.1.2.1 (List.cons_ne_nil _ _))
    obtain ⟨r, h1, h2⟩ := wsum_splitQ itersF itersG (h.lt hs) hqW hs rfl
    show _ + wsum T W _ _ (upd s.calls t _) (upd s.queues (q % W) _) = _
    rw [h2, h1]
    simp only [sum1, sum0, itersF, itersG, List.map_append, List.sum_append, List.flatten_cons, itemsIters_append]
    omega
  case throwTask => cases hth
  case throwOwn => cases hth
  case retThrow τ l' e rest _ he hs =>
    have := hev.excThrown l' e he
    have hth : s.thrown = [] := hth
    rw [hth] at this
    cases this
  case start τ tag iters b next rest hne hs =>
    obtain ⟨r, h1, h2⟩ := key _ _ hs
    show s.started.length + wsum T W _ _ (upd s.calls t _) s.queues = _
    rw [h2, h1]
    simp only [sum1, itersF, loopBlocks_flatten, progIters, itemsIters_zip]
    omega
  case ownStart τ l i todo rest hs =>
    obtain ⟨r, h1, h2⟩ := key _ _ hs
    show s.started.length + 1 + wsum T W _ _ (upd s.calls t _) s.queues = _
    rw [h2, h1]
    simp only [sum1, itersF, itemsIters_cons]
    omega
  case taskStart τ l i todo rest hs =>
    obtain ⟨r, h1, h2⟩ := key _ _ hs
    show s.started.length + 1 + wsum T W _ _ (upd s.calls t _) s.queues = _
    rw [h2, h1]
    simp only [sum1, itersF, itemsIters_cons]
    omega
  all_goals
    rename_i hs
    obtain ⟨r, h1, h2⟩ := key _ _ hs
    show _ + wsum T W _ _ (upd s.calls t _) s.queues = _
    rw [h2, h1]
    simp only [sum1, itersF, progIters, progItersL, hnil, List.flatten_nil, List.nil_append]
    try omega

theorem thrown_mono (W : Nat) (s : PoolState E) (t : Nat) (h : (poolStep W s t).thrown = []) : s.thrown = [] := by
  have hstep := poolStep_view W s t
  revert hstep h
  generalize poolStep W s t = s'
  intro h hstep
  cases hstep
  case throwTask => cases h
  case throwOwn => cases h
  all_goals exact h

theorem itersLeft_init (W : Nat) (progs : List (PoolProg E)) :
    itersLeft (W + progs.length) W (poolInit W progs) = (progs.map progIters).sum := by
  unfold itersLeft wsum
  have hq : sumTo W (fun w => (((poolInit W progs).queues w).map itersG).sum) = 0 := by
    rcases Nat.eq_zero_or_pos (sumTo W (fun w => (((poolInit W progs).queues w).map itersG).sum)) with h | h
    · exact h
    · obtain ⟨w, _, hw⟩ := sumTo_pos h
      exact absurd hw (Nat.lt_irrefl 0)
  rw [hq, Nat.add_zero]
  have hlow : ∀ n ≤ W, sumTo n (fun t => (((poolInit W progs).calls t).map (fun c => itersF c.frame)).sum) = 0 := by
    intro n
    induction n with
    | zero => intro _; rfl
    | succ n ih =>
      intro hn
      rw [sumTo_succ, ih (by omega)]
      have : (poolInit W progs).calls n = [] := by
        show (if n < W then [] else _) = []
        rw [if_pos (by omega)]
      rw [this]
      rfl
  have hall : ∀ n ≤ progs.length, sumTo (W + n) (fun t => (((poolInit W progs).calls t).map (fun c => itersF c.frame)).sum) =
      ((progs.take n).map progIters).sum := by
    intro n
    induction n with
    | zero => intro _; rw [Nat.add_zero, hlow W (Nat.le_refl _)]; rfl
    | succ n ih =>
      intro hn
      rw [← Nat.add_assoc, sumTo_succ, ih (by omega)]
      have hlt : n < progs.length := by omega
      have : (poolInit W progs).calls (W + n) = [⟨0, .body none progs[n]⟩] := by
        show (if W + n < W then [] else _) = _
        rw [if_neg (by omega), Nat.add_sub_cancel_left, List.getElem?_eq_getElem hlt]
      rw [this, List.take_succ_eq_append_getElem hlt, List.map_append, List.sum_append]
      rfl
  rw [hall _ (Nat.le_refl _), List.take_length]

theorem iters_conserved (W : Nat) (progs : List (PoolProg E)) (es : List Nat) (h : (poolRun W progs es).thrown = []) :
    (poolRun W progs es).started.length + itersLeft (W + progs.length) W (poolRun W progs es) = (progs.map progIters).sum := by
  induction es using Gapp.ListAux.snoc_induction with
  | nil => rw [← itersLeft_init W progs]; exact Nat.zero_add _
  | append_singleton es t ih =>
    rw [poolRun_snoc] at h ⊢
    have hinv := poolInv_run W progs es
    rw [itersLeft_step hinv.shape hinv.ev (poolStep_view W _ t) h]
    exact ih (thrown_mono W _ t h)

theorem wsum_finished {T W : Nat} {s : PoolState E} (h : PInv T W s) (hf : PoolFinished s) (f : PoolFrame E → Nat) (g : PoolTask E → Nat) :
    wsum T W f g s.calls s.queues = 0 :=
  fresh_sum h (fun t c hc => by rw [hf.1 t] at hc; cases hc) (fun w k hk => by rw [hf.2 w] at hk; cases hk)

/-! ## After the end of a loop -/

/-- Nothing of a loop is left when its call has ended and its latch is zero. -/
theorem loop_over {T W : Nat} {s : PoolState E} (h : PoolInv T W s) {l : Nat} (hlat : s.latch l = 0) (hdead : s.alive l = false)
    (i : Nat) : wsum T W (pendF l i) (pendG l i) s.calls s.queues = 0 ∧ wsum T W (runF l i) (fun _ => 0) s.calls s.queues = 0 := by
  have hl := h.latch l
  rw [hlat] at hl
  have ho := h.owner l
  rw [hdead] at ho
  simp only [Bool.false_eq_true, if_false] at ho
  have hout : ∀ t, T ≤ t → s.calls t = [] := h.shape.out
  have hqout : ∀ w, W ≤ w → s.queues w = [] := h.shape.qout
  have htask : ∀ t c, c ∈ s.calls t → tasksF l c.frame = 0 ∧ earlyF l c.frame = 0 := by
    intro t c hc
    have ht : t < T := by
      by_contra hn
      rw [hout t (by omega)] at hc
      cases hc
    have h1 := le_wsum_call (f := tasksF l) (g := tasksG l) (W := W) (queues := s.queues) ht hc
    have h2 := le_wsum_call (f := earlyF l) (g := fun _ => 0) (W := W) (queues := s.queues) ht hc
    omega
  have hown : ∀ t τ todo, (⟨τ, .own l todo⟩ : PoolCall E) ∉ s.calls t := by
    intro t τ todo hc
    have := (htask t _ hc).2
    simp only [earlyF, same_self] at this
    omega
  have htsk : ∀ t τ todo, (⟨τ, .task l todo⟩ : PoolCall E) ∉ s.calls t := by
    intro t τ todo hc
    have := (htask t _ hc).1
    simp only [tasksF, same_self] at this
    omega
  refine ⟨fresh_sum h.shape (fun t c hc => ?_) (fun w k hk => ?_), fresh_sum h.shape (fun t c hc => ?_) (fun w k hk => rfl)⟩
  · obtain ⟨h1, h2⟩ := htask t c hc
    obtain ⟨τ, f⟩ := c
    cases f <;> simp only [tasksF, earlyF, pendF] at h1 h2 ⊢ <;> first | rfl | (rw [h2, Nat.zero_mul]) | (rw [h1, Nat.zero_mul])
  · have hw : w < W := by
      by_contra hn
      rw [hqout w (by omega)] at hk
      cases hk
    have h1 := le_wsum_task (f := tasksF l) (g := tasksG l) (T := T) (calls := s.calls) hw hk
    have h2 : tasksG l k = 0 := by omega
    unfold tasksG at h2
    unfold pendG
    rw [h2, Nat.zero_mul]
  · obtain ⟨τ, f⟩ := c
    cases f with
    | body tag p =>
      rcases tag with _ | ⟨l', i'⟩
      · rfl
      · by_cases hll : l' = l
        · exfalso
          subst hll
          obtain ⟨rest, hok, hrest⟩ := stackOk_mem (h.shape.shape t) hc
          obtain ⟨τ', todo, r, h3 | h3⟩ := hok
          · exact hown t τ' todo (hrest _ (by rw [h3]; exact List.mem_cons_self))
          · exact htsk t τ' todo (hrest _ (by rw [h3]; exact List.mem_cons_self))
        · show same l' l * same i' i = 0
          rw [same_ne hll, Nat.zero_mul]
    | _ => rfl

theorem loop_over_step {T W : Nat} {s s' : PoolState E} {t : Nat} (h : PoolInv T W s) (hstep : PStep W s t s') {l : Nat}
    (hlat : s.latch l = 0) (hdead : s.alive l = false) (hclk : l < s.clock) (i : Nat) :
    (s'.latch l = 0 ∧ s'.alive l = false ∧ l < s'.clock) ∧ s'.started.count (l, i) = s.started.count (l, i) := by
  cases hstep
  case start =>
    refine ⟨⟨?_, ?_, Nat.lt_succ_of_lt hclk⟩, rfl⟩
    · show upd s.latch s.clock _ l = 0
      rw [upd_ne _ _ (by omega)]; exact hlat
    · show upd s.alive s.clock true l = false
      rw [upd_ne _ _ (by omega)]; exact hdead
  case taskStart τ l' x todo rest hs =>
    refine ⟨⟨hlat, hdead, Nat.lt_succ_of_lt hclk⟩, ?_⟩
    have := latch_of_task h.shape h.latch (t := t) (τ := τ) (l := l') (todo := x :: todo) (by rw [hs]; exact List.mem_cons_self)
    show ((l', x.1) :: s.started).count (l, i) = _
    rw [count_pair_cons, same_ne (by rintro rfl; omega), Nat.zero_mul, Nat.zero_add]
  case ownStart τ l' x todo rest hs =>
    refine ⟨⟨hlat, hdead, Nat.lt_succ_of_lt hclk⟩, ?_⟩
    have := alive_of_own h.shape h.owner (t := t) (τ := τ) (l := l') (todo := x :: todo) (by rw [hs]; exact List.mem_cons_self)
    show ((l', x.1) :: s.started).count (l, i) = _
    rw [count_pair_cons, same_ne (by rintro rfl; rw [hdead] at this; cases this), Nat.zero_mul, Nat.zero_add]
  case takeIdle => exact ⟨⟨hlat, hdead, Nat.lt_succ_of_lt hclk⟩, rfl⟩
  case takeLocal => exact ⟨⟨hlat, hdead, Nat.lt_succ_of_lt hclk⟩, rfl⟩
  case taskEnd τ l' rest hs =>
    refine ⟨⟨?_, hdead, hclk⟩, rfl⟩
    show upd s.latch l' _ l = 0
    by_cases hll : l = l'
    · subst hll; rw [upd_same]; omega
    · rw [upd_ne _ _ hll]; exact hlat
  case throwOwn τ tag e τ' l' todo rest hs =>
    refine ⟨⟨hlat, ?_, hclk⟩, rfl⟩
    show upd s.alive l' false l = false
    by_cases hll : l = l'
    · subst hll; rw [upd_same]
    · rw [upd_ne _ _ hll]; exact hdead
  case retOk τ l' rest _ _ hs =>
    refine ⟨⟨hlat, ?_, hclk⟩, rfl⟩
    show upd s.alive l' false l = false
    by_cases hll : l = l'
    · subst hll; rw [upd_same]
    · rw [upd_ne _ _ hll]; exact hdead
  case retThrow τ l' e rest _ _ hs =>
    refine ⟨⟨hlat, ?_, hclk⟩, rfl⟩
    show upd s.alive l' false l = false
    by_cases hll : l = l'
    · subst hll; rw [upd_same]
    · rw [upd_ne _ _ hll]; exact hdead
  all_goals exact ⟨⟨hlat, hdead, hclk⟩, rfl⟩

end Gapp.Model
