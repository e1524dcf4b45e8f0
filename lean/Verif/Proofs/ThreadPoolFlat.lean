import Verif.Proofs.ThreadPoolTotal

/-! The distribution of the tasks when one thread runs loops one after the other. -/

namespace Gapp.Model

variable {E : Type}

/-- An iteration that does nothing here, or throws. -/
def simpleBody : Option E → PoolProg E
  | none => .done
  | some e => .throw e

/-- Loops one after the other, without nesting: the iterations and the block size minus one. -/
def flatProg : List (List (Option E) × Nat) → PoolProg E
  | [] => .done
  | (iters, b) :: r => .loop (iters.map simpleBody) b (flatProg r)

/-- The blocks that are submitted from turn `n` on: the turn, the queue and the elements. -/
def numberBlocks (W n : Nat) (bs : List (List Nat)) : List (Nat × Nat × List Nat) :=
  (bs.zipIdx n).map (fun x => (x.2, x.2 % W, x.1))

/-- The tasks of loops with the given sizes, from turn `n` on: the turn, the queue and the elements of each. -/
def plannedTasks (W : Nat) : Nat → List (Nat × Nat) → List (Nat × Nat × List Nat)
  | _, [] => []
  | n, (size, b) :: r =>
    let bs := (loopBlocks W (b + 1) (List.range size)).1
    numberBlocks W n bs ++ plannedTasks W (n + bs.length) r

def IsSimple (p : PoolProg E) : Prop := ∃ o, p = simpleBody o

def SimpleItems (xs : List (PoolItem E)) : Prop := ∀ x ∈ xs, IsSimple x.2

/-- The calls of a worker that runs no loops itself. -/
def WorkerFrame : PoolFrame E → Prop
  | .body tag p => tag ≠ none ∧ IsSimple p
  | .task _ todo => SimpleItems todo
  | _ => False

abbrev Loops (E : Type) := List (List (Option E) × Nat)

def sizes (r : Loops E) : List (Nat × Nat) := r.map (fun x => (x.1.length, x.2))

/-- The calls of the thread of the user; `fut` are the tasks it will submit. -/
inductive UserOk (W : Nat) (s : PoolState E) (fut : List (Nat × Nat × List Nat)) : List (PoolCall E) → Prop
  | over : UserOk W s fut []
  | thrown (τ : Nat) (e : E) : UserOk W s fut [⟨τ, .body none (.throw e)⟩]
  | body (τ : Nat) (r : Loops E) (nx : PoolProg E) (hnx : nx = flatProg r) (hf : fut = plannedTasks W s.turn (sizes r)) : UserOk W s fut [⟨τ, .body none nx⟩]
  | submit (τ τ' l : Nat) (bs : List (List (PoolItem E))) (own : List (PoolItem E)) (r : Loops E) (nx : PoolProg E) (hnx : nx = flatProg r)
    (hb : ∀ b ∈ bs, SimpleItems b) (ho : SimpleItems own)
    (hf : fut = numberBlocks W s.turn (bs.map (fun b => b.map (·.1))) ++ plannedTasks W (s.turn + bs.length) (sizes r)) :
    UserOk W s fut [⟨τ, .submit l bs own none⟩, ⟨τ', .body none nx⟩]
  | fetched (τ τ' l n : Nat) (b : List (PoolItem E)) (bs : List (List (PoolItem E))) (own : List (PoolItem E)) (r : Loops E) (nx : PoolProg E) (hnx : nx = flatProg r)
    (hb : ∀ x ∈ b :: bs, SimpleItems x) (ho : SimpleItems own) (hn : s.turn = n + 1)
    (hf : fut = numberBlocks W n ((b :: bs).map (fun b => b.map (·.1))) ++ plannedTasks W (n + (b :: bs).length) (sizes r)) :
    UserOk W s fut [⟨τ, .submit l (b :: bs) own (some n)⟩, ⟨τ', .body none nx⟩]
  | own (τ τ' l : Nat) (todo : List (PoolItem E)) (r : Loops E) (nx : PoolProg E) (hnx : nx = flatProg r) (ho : SimpleItems todo)
    (hf : fut = plannedTasks W s.turn (sizes r)) : UserOk W s fut [⟨τ, .own l todo⟩, ⟨τ', .body none nx⟩]
  | iter (τ τ' τ'' l l' i : Nat) (p : PoolProg E) (todo : List (PoolItem E)) (r : Loops E) (nx : PoolProg E) (hnx : nx = flatProg r) (hp : IsSimple p) (ho : SimpleItems todo)
    (hf : fut = plannedTasks W s.turn (sizes r)) :
    UserOk W s fut [⟨τ, .body (some (l, i)) p⟩, ⟨τ', .own l' todo⟩, ⟨τ'', .body none nx⟩]
  | check (τ τ' l : Nat) (r : Loops E) (nx : PoolProg E) (hnx : nx = flatProg r) (hf : fut = plannedTasks W s.turn (sizes r)) :
    UserOk W s fut [⟨τ, .check l⟩, ⟨τ', .body none nx⟩]

structure FlatInv (W : Nat) (plan : List (Nat × Nat × List Nat)) (s : PoolState E) : Prop where
  workers : ∀ t < W, ∀ c ∈ s.calls t, WorkerFrame c.frame
  queues : ∀ w, ∀ k ∈ s.queues w, SimpleItems k.items
  user : ∃ fut, s.submitted.reverse ++ fut = plan ∧ UserOk W s fut (s.calls W)

theorem UserOk.of_turn {W : Nat} {s s' : PoolState E} {fut : List (Nat × Nat × List Nat)} {st : List (PoolCall E)}
    (h : UserOk W s fut st) (ht : s'.turn = s.turn) : UserOk W s' fut st := by
  cases h with
  | over => exact .over
  | thrown => exact .thrown _ _
  | body τ r nx hnx hf => exact .body _ _ _ hnx (by rw [ht]; exact hf)
  | submit _ _ _ _ _ _ _ hnx hb ho hf => exact .submit _ _ _ _ _ _ _ hnx hb ho (by rw [ht]; exact hf)
  | fetched _ _ _ _ _ _ _ _ _ hnx hb ho hn hf => exact .fetched _ _ _ _ _ _ _ _ _ hnx hb ho (by rw [ht]; exact hn) hf
  | own _ _ _ _ _ _ hnx ho hf => exact .own _ _ _ _ _ _ hnx ho (by rw [ht]; exact hf)
  | iter _ _ _ _ _ _ _ _ _ _ hnx hp ho hf => exact .iter _ _ _ _ _ _ _ _ _ _ hnx hp ho (by rw [ht]; exact hf)
  | check _ _ _ _ _ hnx hf => exact .check _ _ _ _ _ hnx (by rw [ht]; exact hf)

/-- A step of a worker. -/
theorem flat_worker {W : Nat} {plan : List (Nat × Nat × List Nat)} {s s' : PoolState E} {t : Nat} (h : FlatInv W plan s)
    (hstep : PStep W s t s') (ht : t < W) : FlatInv W plan s' := by
  have hw := h.workers t ht
  have hupd : ∀ {new : List (PoolCall E)} {s' : PoolState E}, (∀ c ∈ new, WorkerFrame c.frame) → s'.calls = upd s.calls t new →
      (∀ w, ∀ k ∈ s'.queues w, SimpleItems k.items) → s'.submitted = s.submitted → s'.turn = s.turn → FlatInv W plan s' := by
    intro new s' h1 h2 h3 h4 h5
    refine ⟨fun u hu c hc => ?_, h3, ?_⟩
    · rw [h2] at hc
      by_cases hut : u = t
      · subst hut; rw [upd_same] at hc; exact h1 c hc
      · rw [upd_ne _ _ hut] at hc; exact h.workers u hu c hc
    · obtain ⟨fut, hf, hu⟩ := h.user
      refine ⟨fut, by rw [h4]; exact hf, ?_⟩
      rw [h2, upd_ne _ _ (by omega)]
      exact hu.of_turn h5
  have hdeq : ∀ {q}, (∃ k, s.queues t = k :: q) → ∀ w, ∀ k ∈ upd s.queues t q w, SimpleItems k.items := by
    rintro q ⟨k0, hq⟩ w k hk
    by_cases hwt : w = t
    · subst hwt; rw [upd_same] at hk; exact h.queues _ k (by rw [hq]; exact List.mem_cons_of_mem _ hk)
    · rw [upd_ne _ _ hwt] at hk; exact h.queues w k hk
  cases hstep
  case same => exact h
  case takeIdle k q hs _ hq =>
    refine hupd ?_ rfl (hdeq ⟨k, hq⟩) rfl rfl
    intro c hc
    rw [List.mem_singleton.1 hc]
    exact h.queues t k (by rw [hq]; exact List.mem_cons_self)
  case bodyDone τ tag rest hs =>
    rw [hs] at hw
    exact hupd (fun c hc => hw c (List.mem_cons_of_mem _ hc)) rfl h.queues rfl rfl
  case throwTask τ tag e τ' l todo rest hs =>
    rw [hs] at hw
    refine hupd (fun c hc => ?_) rfl h.queues rfl rfl
    rcases List.mem_cons.1 hc with hc | hc
    · subst hc; exact fun x hx => by cases hx
    · exact hw c (by simp [hc])
  case throwOut τ tag e rest _ _ hs =>
    rw [hs] at hw
    exact hupd (fun c hc => hw c (List.mem_cons_of_mem _ hc)) rfl h.queues rfl rfl
  case taskStart τ l i todo rest hs =>
    rw [hs] at hw
    have h1 : SimpleItems (i :: todo) := hw _ List.mem_cons_self
    refine hupd (fun c hc => ?_) rfl h.queues rfl rfl
    rcases List.mem_cons.1 hc with hc | hc
    · subst hc; exact ⟨Option.some_ne_none _, h1 i List.mem_cons_self⟩
    · rcases List.mem_cons.1 hc with hc | hc
      · subst hc; exact fun x hx => h1 x (List.mem_cons_of_mem _ hx)
      · exact hw c (List.mem_cons_of_mem _ hc)
  case taskEnd τ l rest hs =>
    rw [hs] at hw
    exact hupd (fun c hc => hw c (List.mem_cons_of_mem _ hc)) rfl h.queues rfl rfl
  case throwOwn τ tag e τ' l todo rest hs =>
    rw [hs] at hw
    exact False.elim (hw _ (List.mem_cons_of_mem _ List.mem_cons_self))
  case emptyLoop τ tag b next rest hs =>
    obtain ⟨_, o, ho⟩ : WorkerFrame (.body tag (.loop [] b next)) := hw _ (by rw [hs]; exact List.mem_cons_self)
    cases o <;> cases ho
  case start τ tag iters b next rest _ hs =>
    obtain ⟨_, o, ho⟩ : WorkerFrame (.body tag (.loop iters b next)) := hw _ (by rw [hs]; exact List.mem_cons_self)
    cases o <;> cases ho
  all_goals
    rename_i hs
    rw [hs] at hw
    exact False.elim (hw _ List.mem_cons_self)

theorem numberBlocks_cons (W n : Nat) (b : List Nat) (bs : List (List Nat)) :
    numberBlocks W n (b :: bs) = (n, n % W, b) :: numberBlocks W (n + 1) bs := by
  unfold numberBlocks
  rw [List.zipIdx_cons, List.map_cons]

theorem cutBlocks_map {α β : Type} (f : α → β) (step rem k : Nat) : ∀ (i : Nat) (xs : List α),
    (cutBlocks step rem k i (xs.map f)).1 = (cutBlocks step rem k i xs).1.map (fun b => b.map f) := by
  induction k with
  | zero => intro i xs; rfl
  | succ k ih =>
    intro i xs
    unfold cutBlocks
    simp only
    rw [← List.map_drop, ih, List.map_cons, List.map_take]

theorem loopBlocks_map {α β : Type} (f : α → β) (W b : Nat) (xs : List α) :
    (loopBlocks W b (xs.map f)).1 = (loopBlocks W b xs).1.map (fun b => b.map f) := by
  unfold loopBlocks
  simp only
  rw [List.length_map, cutBlocks_map]

theorem loopBlocks_mem {α : Type} {W b : Nat} {xs : List α} {x : α} (h : (∃ c ∈ (loopBlocks W b xs).1, x ∈ c) ∨ x ∈ (loopBlocks W b xs).2) :
    x ∈ xs := by
  rw [← loopBlocks_flatten W b xs]
  rcases h with ⟨c, hc, hx⟩ | h
  · exact List.mem_append_left _ (List.mem_flatten.2 ⟨c, hc, hx⟩)
  · exact List.mem_append_right _ h

theorem plannedTasks_cons (W n size b : Nat) (r : List (Nat × Nat)) :
    plannedTasks W n ((size, b) :: r) = numberBlocks W n (loopBlocks W (b + 1) (List.range size)).1
      ++ plannedTasks W (n + (loopBlocks W (b + 1) (List.range size)).1.length) r := rfl

theorem loopBlocks_nil {α : Type} (W b : Nat) : (loopBlocks W b ([] : List α)).1 = [] := by
  have h1 := loopBlocks_length W b ([] : List α)
  have h2 := poolTaskCount_le W ([] : List α).length b
  exact List.length_eq_zero_iff.1 (by simp only [List.length_nil] at h1 h2; omega)

/-- A step of the user. -/
theorem flat_user {W : Nat} {plan : List (Nat × Nat × List Nat)} {s s' : PoolState E} (h : FlatInv W plan s)
    (hstep : PStep W s W s') : FlatInv W plan s' := by
  obtain ⟨fut, hfut, hu⟩ := h.user
  have hupd : ∀ {new : List (PoolCall E)} {s' : PoolState E} {fut' : List (Nat × Nat × List Nat)}, UserOk W s' fut' new →
      s'.calls = upd s.calls W new → (∀ w, ∀ k ∈ s'.queues w, SimpleItems k.items) → s'.submitted.reverse ++ fut' = plan →
      FlatInv W plan s' := by
    intro new s' fut' h1 h2 h3 h4
    refine ⟨fun u hu c hc => ?_, h3, fut', h4, ?_⟩
    · rw [h2, upd_ne _ _ (by omega)] at hc; exact h.workers u hu c hc
    · rw [h2, upd_same]; exact h1
  cases hstep
  case same => exact h
  case takeIdle ht _ => exact absurd ht (Nat.lt_irrefl W)
  case ownEndW ht _ => exact absurd ht (Nat.lt_irrefl W)
  case pollWait ht _ _ => exact absurd ht (Nat.lt_irrefl W)
  case bodyDone τ tag rest hs =>
    rw [hs] at hu
    cases hu with
    | body _ _ _ hnx hf => exact hupd (.over) rfl h.queues hfut
    | iter _ _ _ _ _ _ _ _ _ _ hnx hp ho hf => exact hupd (.own _ _ _ _ _ _ hnx ho hf) rfl h.queues hfut
  case throwTask τ tag e τ' l todo rest hs =>
    rw [hs] at hu; cases hu
  case throwOwn τ tag e τ' l todo rest hs =>
    rw [hs] at hu
    cases hu with
    | iter => exact hupd (.thrown _ _) rfl h.queues hfut
  case throwOut τ tag e rest h1 h2 hs =>
    rw [hs] at hu
    cases hu with
    | thrown => exact hupd .over rfl h.queues hfut
    | body => exact hupd .over rfl h.queues hfut
    | iter _ _ _ _ _ _ _ _ _ _ hnx hp ho hf => exact absurd rfl (h2 _ _ _ _)
  case emptyLoop τ tag b next rest hs =>
    rw [hs] at hu
    cases hu with
    | body _ r _ hnx hf =>
      cases r with
      | nil => cases hnx
      | cons x r =>
        obtain ⟨iters, b'⟩ := x
        unfold flatProg at hnx
        injection hnx with h1 h2 h3
        have h4 : iters = [] := List.map_eq_nil_iff.1 h1.symm
        subst h4
        refine hupd (.body _ r _ h3 ?_) rfl h.queues hfut
        rw [hf]
        show plannedTasks W s.turn ((0, b') :: sizes r) = plannedTasks W s.turn (sizes r)
        rw [plannedTasks_cons, List.range_zero, loopBlocks_nil]
        rfl
    | iter _ _ _ _ _ _ _ _ _ _ hnx hp ho hf =>
      obtain ⟨o, ho⟩ := hp
      cases o <;> cases ho
  case start τ tag iters b next rest hne hs =>
    rw [hs] at hu
    cases hu with
    | body _ r _ hnx hf =>
      cases r with
      | nil => cases hnx
      | cons x r =>
        obtain ⟨its, b'⟩ := x
        unfold flatProg at hnx
        injection hnx with h1 h2 h3
        subst h1 h2
        have hsimple : ∀ x ∈ ((its.map simpleBody).zipIdx.map (fun x => (x.2, x.1))), IsSimple x.2 := by
          intro x hx
          obtain ⟨y, hy, rfl⟩ := List.mem_map.1 hx
          have := List.fst_mem_of_mem_zipIdx hy
          obtain ⟨o, _, ho⟩ := List.mem_map.1 this
          exact ⟨o, ho.symm⟩
        refine hupd (.submit s.clock τ s.clock _ _ r _ h3 (fun c hc x hx => hsimple x (loopBlocks_mem (Or.inl ⟨c, hc, hx⟩)))
          (fun x hx => hsimple x (loopBlocks_mem (Or.inr hx))) ?_) rfl h.queues hfut
        rw [hf]
        show plannedTasks W s.turn ((its.length, b) :: sizes r) = numberBlocks W s.turn _ ++ plannedTasks W (s.turn + _) _
        rw [plannedTasks_cons]
        have hr : List.range its.length = ((its.map simpleBody).zipIdx.map (fun x => (x.2, x.1))).map (·.1) := by
          rw [List.map_map]
          have := List.zipIdx_map_snd 0 (its.map (simpleBody (E := E)))
          rw [List.length_map, ← List.range_eq_range'] at this
          rw [← this]
          rfl
        rw [hr, loopBlocks_map, List.length_map]
    | iter _ _ _ _ _ _ _ _ _ _ hnx hp ho hf =>
      obtain ⟨o, ho⟩ := hp
      cases o <;> cases ho
  case fetch τ l b bs own rest hs =>
    rw [hs] at hu
    cases hu with
    | submit _ _ _ _ _ _ _ hnx hb ho hf => exact hupd (.fetched _ _ _ _ _ _ _ _ _ hnx hb ho rfl hf) rfl h.queues hfut
  case push τ l b bs own n rest hs =>
    rw [hs] at hu
    cases hu with
    | fetched _ _ _ _ _ _ _ r _ hnx hb ho hn hf =>
      refine hupd (.submit _ _ _ _ _ r _ hnx (fun x hx => hb x (List.mem_cons_of_mem _ hx)) ho rfl) rfl ?_ ?_
      · intro w k hk
        have hk : k ∈ upd s.queues (n % W) _ w := hk
        by_cases hw : w = n % W
        · rw [hw, upd_same] at hk
          rcases List.mem_append.1 hk with hk | hk
          · exact h.queues _ k hk
          · rw [List.mem_singleton.1 hk]; exact hb b List.mem_cons_self
        · rw [upd_ne _ _ hw] at hk; exact h.queues w k hk
      · rw [hf, List.map_cons, numberBlocks_cons] at hfut
        rw [← hfut]
        show ((n, n % W, b.map (·.1)) :: s.submitted).reverse ++ (numberBlocks W s.turn _ ++ plannedTasks W (s.turn + bs.length) _) = _
        rw [List.reverse_cons, hn, List.append_assoc, List.length_cons, Nat.add_assoc, Nat.add_comm 1]
        rfl
  case submitted τ l own slot rest hs =>
    rw [hs] at hu
    cases hu with
    | submit _ _ _ _ _ r _ hnx hb ho hf =>
      refine hupd (.own _ _ _ _ r _ hnx ho ?_) rfl h.queues hfut
      rw [hf]
      rfl
  case ownStart τ l i todo rest hs =>
    rw [hs] at hu
    cases hu with
    | own _ _ _ _ _ _ hnx ho hf =>
      exact hupd (.iter _ _ _ _ _ _ _ _ _ _ hnx (ho i List.mem_cons_self) (fun x hx => ho x (List.mem_cons_of_mem _ hx)) hf) rfl h.queues hfut
  case ownEndU τ l rest _ hs =>
    rw [hs] at hu
    cases hu with
    | own _ _ _ _ _ _ hnx ho hf => exact hupd (.check _ _ _ _ _ hnx hf) rfl h.queues hfut
  case retOk τ l rest _ _ hs =>
    rw [hs] at hu
    cases hu with
    | check _ _ _ _ _ hnx hf => exact hupd (.body _ _ _ hnx hf) rfl h.queues hfut
  case retThrow τ l e rest _ _ hs =>
    rw [hs] at hu
    cases hu with
    | check _ _ _ _ _ hnx hf => exact hupd (.thrown _ _) rfl h.queues hfut
  all_goals
    rename_i hs
    rw [hs] at hu
    cases hu

theorem flat_run (W : Nat) (r : Loops E) (es : List Nat) : FlatInv W (plannedTasks W 0 (sizes r)) (poolRun W [flatProg r] es) := by
  induction es using Gapp.ListAux.snoc_induction with
  | nil =>
    refine ⟨fun t ht c hc => ?_, fun w k hk => (by cases hk), _, rfl, ?_⟩
    · have hc : c ∈ (if t < W then [] else _) := hc
      rw [if_pos ht] at hc
      cases hc
    · show UserOk W _ _ (if W < W then [] else match [flatProg r][W - W]? with
        | none => []
        | some p => [⟨0, .body none p⟩])
      rw [if_neg (Nat.lt_irrefl W), Nat.sub_self]
      exact .body _ r _ rfl rfl
  | append_singleton es t ih =>
    rw [poolRun_snoc]
    have hstep := poolStep_view W (poolRun W [flatProg r] es) t
    by_cases ht : t < W
    · exact flat_worker ih hstep ht
    · by_cases htW : t = W
      · rw [htW] at hstep ⊢; exact flat_user ih hstep
      · have hout := (pinv_run W [flatProg r] es).out t (by simp; omega)
        have : poolStep W (poolRun W [flatProg r] es) t = poolRun W [flatProg r] es := by
          unfold poolStep
          rw [hout]
          simp only
          rw [if_neg ht]
        rw [this]
        exact ih

end Gapp.Model
