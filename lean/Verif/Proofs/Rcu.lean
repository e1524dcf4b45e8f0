import Verif.Model.Rcu
import Verif.Proofs.MergePareto
import Verif.Proofs.ListAux

namespace Gapp.Model

/-- The pointer that is going to be deleted by a writer. -/
def oldOf : RcuPc → Option (Nat × Nat)
  | .syncLoad _ old | .syncCas _ old _ | .syncScan _ old _ _ | .synced _ old => old
  | _ => none

/-- When a writer called `synchronize`. -/
def startOf : RcuPc → Option Nat
  | .syncLoad st _ | .syncCas st _ _ | .syncScan st _ _ _ | .synced st _ => some st
  | _ => none

/-- The writer is still going to wait for reader `r` with epoch `e`. -/
def waitOk (e r : Nat) : RcuPc → Prop
  | .syncCas _ _ cur => e ≤ cur
  | .syncScan _ _ tgt i => e < tgt ∧ i ≤ r
  | .synced _ _ => False
  | _ => True

structure RcuInv (n : Nat) (s : RcuState) : Prop where
  buf : ∀ t, s.buf t = []
  lock : ∀ t e outer, s.pc t = .locking e outer → outer = none ∧ e ≤ s.writerEpoch
  read : ∀ t sec, s.pc t = .reading sec → sec.depth = 1 ∧ t < n ∧ ∃ e, s.epoch t = some e ∧ e ≤ s.writerEpoch
  guard : ∀ r sec w e, s.pc r = .reading sec → s.epoch r = some e →
    ((∃ p ∈ sec.held, oldOf (s.pc w) = some p) ∨ (∃ st, startOf (s.pc w) = some st ∧ sec.start < st)) → waitOk e r (s.pc w)
  held : ∀ r sec p, s.pc r = .reading sec → p ∈ sec.held → p ∉ s.freed
  old : ∀ w p, oldOf (s.pc w) = some p → p.2 < s.version p.1
  freed : ∀ p ∈ s.freed, p.2 < s.version p.1
  start : ∀ w st, startOf (s.pc w) = some st → st < s.clock
  uniq : ∀ w w' p, oldOf (s.pc w) = some p → oldOf (s.pc w') = some p → w = w'
  notFreed : ∀ w p, oldOf (s.pc w) = some p → p ∉ s.freed
  once : s.freed.Nodup

theorem rcuInv_init (n : Nat) : RcuInv n rcuInit := by
  constructor <;> simp [rcuInit, oldOf, startOf]

theorem rcuInv_step {n : Nat} {s : RcuState} (h : RcuInv n s) (t : Nat) (op : RcuOp) (ht : t < n)
    (hnest : op = .readLock → ∀ sec, s.pc t ≠ .reading sec) : RcuInv n (rcuStep false n s (t, op)) := by
  obtain ⟨hbuf, hlock, hread, hguard, hheld, hold, hfreed, hstart, huniq, hnf, honce⟩ := h
  unfold rcuStep
  simp only
  split
  · rename_i hf
    unfold rcuFlush
    rw [hbuf t]
    exact ⟨hbuf, hlock, hread, hguard, hheld, hold, hfreed, fun w st hw => Nat.lt_succ_of_lt (hstart w st hw), huniq, hnf, honce⟩
  unfold rcuMove
  have hsame : RcuInv n { s with clock := s.clock + 1 } := 
    ⟨hbuf, hlock, hread, hguard, hheld, hold, hfreed, fun w st hw => Nat.lt_succ_of_lt (hstart w st hw), huniq, hnf, honce⟩
  cases hpc : s.pc t with
  | idle =>
    cases op with
    | readLock =>
      simp only [rcuGoto]
      constructor <;> simp only <;> grind [upd, oldOf, startOf, waitOk]
    | assign o =>
      simp only [hbuf t, if_true, rcuGoto]
      constructor <;> simp only <;> grind [upd, oldOf, startOf, waitOk]
    | waitForReaders =>
      simp only [rcuGoto]
      constructor <;> simp only <;> grind [upd, oldOf, startOf, waitOk]
    | _ => exact hsame
  | locking e outer =>
    obtain ⟨rfl, he⟩ := hlock t e outer hpc
    simp only [rcuGoto, rcuStore]
    constructor
    case read =>
      intro u sec hu
      simp only at hu ⊢
      by_cases hut : u = t
      · subst hut
        rw [upd_same] at hu
        cases hu
        exact ⟨rfl, ht, e, upd_same _ _ _, he⟩
      · rw [upd_ne _ _ hut] at hu
        have := hread u sec hu
        refine ⟨this.1, this.2.1, ?_⟩
        show ∃ e', upd s.epoch t (some e) u = some e' ∧ _
        rw [upd_ne _ _ hut]
        exact this.2.2
    all_goals simp only <;> grind [upd, oldOf, startOf, waitOk]
  | reading sec =>
    cases op with
    | readLock => exact absurd hpc (hnest rfl sec)
    | get o =>
      simp only [rcuGoto]
      constructor <;> simp only <;> grind [upd, oldOf, startOf, waitOk]
    | readUnlock =>
      have hd : sec.depth ≤ 1 := by rw [(hread t sec hpc).1]
      simp only [hd, if_true, rcuGoto, rcuStore]
      constructor <;> simp only <;> grind [upd, oldOf, startOf, waitOk]
    | _ => exact hsame
  | syncLoad start old =>
    simp only [rcuGoto]
    constructor <;> simp only <;> grind [upd, oldOf, startOf, waitOk]
  | syncCas start old current =>
    simp only [hbuf t, if_true, rcuGoto]
    constructor <;> simp only <;> grind [upd, oldOf, startOf, waitOk]
  | syncScan start old target i =>
    simp only
    split
    · split
      · simp only [rcuGoto]
        constructor <;> simp only <;> grind [upd, oldOf, startOf, waitOk, epochPassed]
      · exact hsame
    · simp only [rcuGoto]
      constructor <;> simp only <;> grind [upd, oldOf, startOf, waitOk]
  | synced start old =>
    simp only [rcuGoto]
    constructor <;> simp only <;> grind [upd, oldOf, startOf, waitOk]

/-- Some thread calls `read_lock` inside of a read section of its own. -/
def NestedRead (n : Nat) (es : List (Nat × RcuOp)) : Prop :=
  ∃ a t b sec, es = a ++ (t, RcuOp.readLock) :: b ∧ (rcuRun false n a).pc t = .reading sec

theorem rcuInv_run (n : Nat) (es : List (Nat × RcuOp)) (he : ∀ e ∈ es, e.1 < n) (hn : ¬ NestedRead n es) :
    RcuInv n (rcuRun false n es) := by
  induction es using Gapp.ListAux.snoc_induction with
  | nil => exact rcuInv_init n
  | append_singleton es e ih =>
    have hrun : rcuRun false n (es ++ [e]) = rcuStep false n (rcuRun false n es) e := by
      unfold rcuRun; rw [List.foldl_append]; rfl
    rw [hrun]
    obtain ⟨t, op⟩ := e
    refine rcuInv_step (ih (fun e' h' => he e' (List.mem_append_left _ h')) ?_) t op (he (t, op) (by simp)) ?_
    · rintro ⟨a, u, b, sec, hes, hpc⟩
      exact hn ⟨a, u, b ++ [(t, op)], sec, by rw [hes]; simp, hpc⟩
    · rintro rfl sec hpc
      exact hn ⟨es, t, [], sec, rfl, hpc⟩

theorem rcuRun_snoc (tso : Bool) (n : Nat) (es : List (Nat × RcuOp)) (e : Nat × RcuOp) :
    rcuRun tso n (es ++ [e]) = rcuStep tso n (rcuRun tso n es) e := by
  unfold rcuRun; rw [List.foldl_append]; rfl

theorem rcuRun_clock (tso : Bool) (n : Nat) (es : List (Nat × RcuOp)) : (rcuRun tso n es).clock = es.length := by
  induction es using Gapp.ListAux.snoc_induction with
  | nil => rfl
  | append_singleton es e ih =>
    rw [rcuRun_snoc]
    show (rcuRun tso n es).clock + 1 = _
    rw [ih, List.length_append, List.length_singleton]

/-- `writer_epoch` reaches the target of every writer. -/
theorem rcuRun_target (tso : Bool) (n : Nat) (es : List (Nat × RcuOp)) :
    ∀ w, (∀ st old cur, (rcuRun tso n es).pc w = .syncCas st old cur → cur ≤ (rcuRun tso n es).writerEpoch) ∧
      (∀ st old tgt i, (rcuRun tso n es).pc w = .syncScan st old tgt i → tgt ≤ (rcuRun tso n es).writerEpoch) := by
  induction es using Gapp.ListAux.snoc_induction with
  | nil => intro w; constructor <;> intros <;> rename_i h <;> cases h
  | append_singleton es e ih =>
    rw [rcuRun_snoc]
    generalize rcuRun tso n es = s at *
    obtain ⟨t, op⟩ := e
    intro w
    have hw := ih w
    have ht := ih t
    unfold rcuStep
    simp only
    split
    · unfold rcuFlush
      split <;> exact hw
    unfold rcuMove
    cases hpc : s.pc t with
    | idle =>
      cases op with
      | assign o =>
        simp only
        split <;> (try simp only [rcuGoto]) <;> grind [upd]
      | _ => simp only [rcuGoto] <;> grind [upd]
    | locking e outer =>
      cases outer <;> cases tso <;> simp only [rcuGoto, rcuStore] <;> grind [upd]
    | reading sec =>
      cases op with
      | readUnlock =>
        simp only
        split <;> cases tso <;> simp only [rcuGoto, rcuStore] <;> grind [upd]
      | _ => simp only [rcuGoto] <;> grind [upd]
    | syncLoad start old => simp only [rcuGoto]; grind [upd]
    | syncCas start old current =>
      simp only
      split <;> (try simp only [rcuGoto]) <;> grind [upd]
    | syncScan start old target i =>
      simp only
      split
      · split <;> (try simp only [rcuGoto]) <;> grind [upd]
      · simp only [rcuGoto]; grind [upd]
    | synced start old => simp only [rcuGoto]; grind [upd]

end Gapp.Model
