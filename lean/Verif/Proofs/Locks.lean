import Verif.Model.Locks
import Verif.Proofs.MergePareto
import Mathlib.Tactic.Linarith

namespace Gapp.Model

/-- How many of the threads `0 … n-1` satisfy `p`. -/
def cnt {β : Type} (n : Nat) (p : β → Bool) (f : Nat → β) : Nat := (List.range n).countP (fun t => p (f t))

theorem cnt_upd_ge {β : Type} (n : Nat) (p : β → Bool) (f : Nat → β) (t : Nat) (v : β) (ht : n ≤ t) :
    cnt n p (upd f t v) = cnt n p f := by
  unfold cnt
  refine List.countP_congr (fun k hk => ?_)
  rw [upd_ne _ _ (by rw [List.mem_range] at hk; omega)]

theorem cnt_upd {β : Type} (n : Nat) (p : β → Bool) (f : Nat → β) (t : Nat) (v : β) (ht : t < n) :
    cnt n p (upd f t v) + (p (f t)).toNat = cnt n p f + (p v).toNat := by
  induction n with
  | zero => omega
  | succ n ih =>
    have hs : ∀ g : Nat → β, cnt (n + 1) p g = cnt n p g + (p (g n)).toNat := by
      intro g
      unfold cnt
      rw [List.range_succ, List.countP_append, List.countP_singleton]
      cases p (g n) <;> rfl
    rw [hs, hs]
    rcases Nat.lt_succ_iff_lt_or_eq.1 ht with h | h
    · rw [upd_ne _ _ (by omega : n ≠ t)]
      have := ih h
      omega
    · subst h
      rw [cnt_upd_ge _ _ _ _ _ (Nat.le_refl _), upd_same]
      omega

theorem cnt_pos {β : Type} {n : Nat} {p : β → Bool} {f : Nat → β} {t : Nat} (ht : t < n) (h : p (f t) = true) :
    0 < cnt n p f := by
  unfold cnt
  rw [List.countP_pos_iff]
  exact ⟨t, List.mem_range.2 ht, h⟩

theorem cnt_le {β : Type} (n : Nat) (p : β → Bool) (f : Nat → β) : cnt n p f ≤ n := by
  have := List.countP_le_length (p := fun t => p (f t)) (l := List.range n)
  rwa [List.length_range] at this

theorem cnt_zero {β : Type} {n : Nat} {p : β → Bool} {f : Nat → β} (h : ∀ t < n, p (f t) = false) : cnt n p f = 0 := by
  unfold cnt
  rw [List.countP_eq_zero]
  intro t ht
  rw [h t (List.mem_range.1 ht)]
  exact Bool.false_ne_true

/-- Two different threads that satisfy `p` are counted twice. -/
theorem cnt_two {β : Type} {n : Nat} {p : β → Bool} {f : Nat → β} {t u : Nat} (ht : t < n) (hu : u < n) (hne : t ≠ u)
    (h : p (f t) = true) (h' : p (f u) = true) : 2 ≤ cnt n p f := by
  by_contra hc
  have h2 : ∀ v : β, p v = false → cnt n p (upd f t v) = 0 := by
    intro v hv
    have := cnt_upd n p f t v ht
    rw [h, hv] at this
    have e1 : true.toNat = 1 := rfl
    have e0 : false.toNat = 0 := rfl
    omega
  by_cases hex : ∃ v : β, p v = false
  · obtain ⟨v, hv⟩ := hex
    have := h2 v hv
    have hp : 0 < cnt n p (upd f t v) := cnt_pos hu (by rw [upd_ne _ _ (Ne.symm hne)]; exact h')
    omega
  · have hall : ∀ v : β, p v = true := by
      intro v
      by_contra hv
      exact hex ⟨v, by simpa using hv⟩
    have : cnt n p f = n := by
      unfold cnt
      rw [List.countP_eq_length.2 (fun k _ => hall _), List.length_range]
    omega

/-! ## `spinlock` -/

structure SpinInv (s : SpinState) : Prop where
  held : s.flag = true ↔ ∃ t, s.pc t = .holding
  one : ∀ t u, s.pc t = .holding → s.pc u = .holding → t = u

theorem spinInv_skip {s : SpinState} {t : Nat} {p : SpinPc} (h : SpinInv s) (h1 : s.pc t ≠ .holding)
    (h2 : p ≠ .holding) : SpinInv { s with pc := upd s.pc t p } := by
  have hiff : ∀ u, upd s.pc t p u = .holding ↔ s.pc u = .holding := by
    intro u
    by_cases hu : u = t
    · subst hu; rw [upd_same]; exact ⟨fun e => absurd e h2, fun e => absurd e h1⟩
    · rw [upd_ne _ _ hu]
  refine ⟨?_, ?_⟩
  · show s.flag = true ↔ ∃ u, upd s.pc t p u = .holding
    rw [h.held]
    exact exists_congr (fun u => (hiff u).symm)
  · intro a b ha hb
    exact h.one a b ((hiff a).1 ha) ((hiff b).1 hb)

theorem spinInv_take {s : SpinState} {t : Nat} (h : SpinInv s) (hf : s.flag = false) :
    SpinInv { flag := true, pc := upd s.pc t .holding } := by
  have hno : ∀ u, s.pc u ≠ .holding := fun u hu => by
    have := h.held.2 ⟨u, hu⟩
    rw [hf] at this; cases this
  refine ⟨⟨fun _ => ⟨t, upd_same _ _ _⟩, fun _ => rfl⟩, ?_⟩
  intro a b ha hb
  have key : ∀ u, upd s.pc t .holding u = .holding → u = t := by
    intro u hu
    by_contra hne
    rw [upd_ne _ _ hne] at hu
    exact hno u hu
  rw [key a ha, key b hb]

theorem spinInv_step {s : SpinState} (e : Nat × SpinOp) (h : SpinInv s) : SpinInv (spinStep s e) := by
  obtain ⟨t, op⟩ := e
  unfold spinStep
  cases hpc : s.pc t <;> simp only [hpc]
  · cases op <;> simp only []
    · exact spinInv_skip h (by rw [hpc]; decide) (by decide)
    · exact spinInv_skip h (by rw [hpc]; decide) (by decide)
    · exact h
  · cases hf : s.flag <;> simp only [Bool.not_false, Bool.not_true, if_true, Bool.false_eq_true, if_false]
    · exact spinInv_take h hf
    · have := spinInv_skip (p := .lockSpin) h (t := t) (by rw [hpc]; decide) (by decide)
      rwa [hf] at this
  · split
    · exact h
    · exact spinInv_skip h (by rw [hpc]; decide) (by decide)
  · cases hf : s.flag <;> simp only [Bool.not_false, Bool.not_true, if_true, Bool.false_eq_true, if_false]
    · have := spinInv_skip (p := .trySet) h (t := t) (by rw [hpc]; decide) (by decide)
      rwa [hf] at this
    · have := spinInv_skip (p := .idle) h (t := t) (by rw [hpc]; decide) (by decide)
      rwa [hf] at this
  · cases hf : s.flag <;> simp only [Bool.not_false, Bool.not_true, if_true, Bool.false_eq_true, if_false]
    · exact spinInv_take h hf
    · have := spinInv_skip (p := .idle) h (t := t) (by rw [hpc]; decide) (by decide)
      rwa [hf] at this
  · cases op <;> simp only []
    · exact h
    · exact h
    · have hno : ∀ u, upd s.pc t .idle u ≠ .holding := by
        intro u hu
        by_cases hut : u = t
        · subst hut; rw [upd_same] at hu; cases hu
        · rw [upd_ne _ _ hut] at hu
          exact hut (h.one u t hu hpc)
      refine ⟨⟨fun hf => (by cases hf), fun ⟨u, hu⟩ => absurd hu (hno u)⟩, ?_⟩
      intro a b ha _
      exact absurd ha (hno a)

theorem spinInv_run (es : List (Nat × SpinOp)) : SpinInv (spinRun es) := by
  unfold spinRun
  have : ∀ (es : List (Nat × SpinOp)) (s : SpinState), SpinInv s → SpinInv (es.foldl spinStep s) := by
    intro es
    induction es with
    | nil => intro s h; exact h
    | cons e es ih => intro s h; exact ih _ (spinInv_step e h)
  refine this es _ ⟨⟨fun h => (by cases h), fun ⟨t, ht⟩ => (by cases ht)⟩, fun t u ht => (by cases ht)⟩

/-! ## `shared_spinlock` -/

theorem sharedWriter_toNat : sharedWriter.toNat = 2147483647 := by decide +kernel

/-- Threads that contribute 1 to the counter. -/
def isShared : SharedPc → Bool
  | .sharedSpin | .trySharedSub | .reading => true
  | _ => false

def isWriting : SharedPc → Bool
  | .writing => true
  | _ => false

def isReading : SharedPc → Bool
  | .reading => true
  | _ => false

structure SharedInv (n : Nat) (s : SharedState) : Prop where
  count : s.cntr.toNat = 2147483647 * cnt n isWriting s.pc + cnt n isShared s.pc
  le : cnt n isWriting s.pc ≤ 1
  excl : cnt n isWriting s.pc = 1 → cnt n isReading s.pc = 0

theorem isReading_le (n : Nat) (f : Nat → SharedPc) : cnt n isReading f ≤ cnt n isShared f := by
  unfold cnt
  refine List.countP_mono_left (fun t _ h => ?_)
  revert h
  cases f t <;> decide

theorem sharedInv_step {n : Nat} (hn : n < 2147483647) {s : SharedState} (e : Nat × SharedOp) (he : e.1 < n)
    (h : SharedInv n s) : SharedInv n (sharedStep s e) := by
  obtain ⟨t, op⟩ := e
  simp only at he
  have hW := fun v => cnt_upd n isWriting s.pc t v he
  have hS := fun v => cnt_upd n isShared s.pc t v he
  have hR := fun v => cnt_upd n isReading s.pc t v he
  have hSle := cnt_le n isShared s.pc
  have hRS := isReading_le n s.pc
  have e1 : true.toNat = 1 := rfl
  have e0 : false.toNat = 0 := rfl
  have hc := h.count
  have hle := h.le
  have hex := h.excl
  -- a step that changes nothing but the position of the thread
  have skip : ∀ v, isWriting v = isWriting (s.pc t) → isShared v = isShared (s.pc t) →
      isReading v = isReading (s.pc t) → SharedInv n { s with pc := upd s.pc t v } := by
    intro v h1 h2 h3
    have a := hW v; have b := hS v; have c := hR v
    rw [h1] at a; rw [h2] at b; rw [h3] at c
    refine ⟨?_, ?_, ?_⟩
    · show s.cntr.toNat = 2147483647 * cnt n isWriting (upd s.pc t v) + cnt n isShared (upd s.pc t v)
      rw [hc]; omega
    · show cnt n isWriting (upd s.pc t v) ≤ 1
      omega
    · show cnt n isWriting (upd s.pc t v) = 1 → cnt n isReading (upd s.pc t v) = 0
      intro hw
      have := hex (by omega)
      omega
  -- acquiring the lock as a writer
  have write : s.cntr = 0 → isShared (s.pc t) = false → isReading (s.pc t) = false → isWriting (s.pc t) = false →
      SharedInv n { cntr := sharedWriter, pc := upd s.pc t .writing } := by
    intro h0 h1 h2 h3
    have a := hW .writing; have b := hS .writing; have c := hR .writing
    rw [h3] at a; rw [h1] at b; rw [h2] at c
    have hz : s.cntr.toNat = 0 := by rw [h0]; rfl
    simp only [isWriting, isShared, isReading, e1, e0] at a b c
    refine ⟨?_, ?_, ?_⟩
    · show sharedWriter.toNat = 2147483647 * cnt n isWriting (upd s.pc t .writing) + cnt n isShared (upd s.pc t .writing)
      rw [sharedWriter_toNat]; omega
    · show cnt n isWriting (upd s.pc t .writing) ≤ 1
      omega
    · intro _
      show cnt n isReading (upd s.pc t .writing) = 0
      omega
  have hadd : (s.cntr + 1).toNat = s.cntr.toNat + 1 := by
    rw [BitVec.toNat_add, Nat.mod_eq_of_lt] <;> rw [show (1 : BitVec 32).toNat = 1 from rfl]
    omega
  have hsub : 0 < s.cntr.toNat → (s.cntr - 1).toNat = s.cntr.toNat - 1 := by
    intro hp
    rw [BitVec.toNat_sub_of_le]
    · rfl
    · rw [BitVec.le_def]; exact hp
  unfold sharedStep
  cases hpc : s.pc t <;> simp only [hpc]
  · cases op <;> simp only []
    · exact skip _ (by rw [hpc]; rfl) (by rw [hpc]; rfl) (by rw [hpc]; rfl)
    · exact skip _ (by rw [hpc]; rfl) (by rw [hpc]; rfl) (by rw [hpc]; rfl)
    · exact h
    · exact skip _ (by rw [hpc]; rfl) (by rw [hpc]; rfl) (by rw [hpc]; rfl)
    · exact skip _ (by rw [hpc]; rfl) (by rw [hpc]; rfl) (by rw [hpc]; rfl)
    · exact h
  · split
    · rename_i h0
      exact write h0 (by rw [hpc]; rfl) (by rw [hpc]; rfl) (by rw [hpc]; rfl)
    · exact skip _ (by rw [hpc]; rfl) (by rw [hpc]; rfl) (by rw [hpc]; rfl)
  · split
    · exact h
    · exact skip _ (by rw [hpc]; rfl) (by rw [hpc]; rfl) (by rw [hpc]; rfl)
  · split
    · rename_i h0
      exact write h0 (by rw [hpc]; rfl) (by rw [hpc]; rfl) (by rw [hpc]; rfl)
    · exact skip _ (by rw [hpc]; rfl) (by rw [hpc]; rfl) (by rw [hpc]; rfl)
  · cases op <;> simp only []
    case unlock =>
      have hp : 0 < cnt n isWriting s.pc := cnt_pos he (by rw [hpc]; rfl)
      have a := hW .idle; have b := hS .idle; have c := hR .idle
      rw [hpc] at a b c
      simp only [isWriting, isShared, isReading, e1, e0] at a b c
      have hs : (s.cntr - sharedWriter).toNat = s.cntr.toNat - 2147483647 := by
        rw [BitVec.toNat_sub_of_le, sharedWriter_toNat]
        rw [BitVec.le_def, sharedWriter_toNat]; omega
      refine ⟨?_, ?_, ?_⟩
      · show (s.cntr - sharedWriter).toNat = 2147483647 * cnt n isWriting (upd s.pc t .idle) + cnt n isShared (upd s.pc t .idle)
        rw [hs]; omega
      · show cnt n isWriting (upd s.pc t .idle) ≤ 1
        omega
      · intro hw
        have : cnt n isWriting (upd s.pc t .idle) = 1 := hw
        omega
    all_goals exact h
  · have a := hW .sharedSpin; have b := hS .sharedSpin; have c := hR .sharedSpin
    rw [hpc] at a b c
    simp only [isWriting, isShared, isReading, e1, e0] at a b c
    refine ⟨?_, ?_, ?_⟩
    · show (s.cntr + 1).toNat = 2147483647 * cnt n isWriting (upd s.pc t .sharedSpin) + cnt n isShared (upd s.pc t .sharedSpin)
      rw [hadd]; omega
    · show cnt n isWriting (upd s.pc t .sharedSpin) ≤ 1
      omega
    · intro hw
      have hw : cnt n isWriting (upd s.pc t .sharedSpin) = 1 := hw
      show cnt n isReading (upd s.pc t .sharedSpin) = 0
      have := hex (by omega)
      omega
  · split
    · exact h
    · rename_i hlt
      have hlt : s.cntr.toNat < 2147483647 := by
        rw [ge_iff_le, BitVec.le_def, sharedWriter_toNat] at hlt
        omega
      have a := hW .reading; have b := hS .reading; have c := hR .reading
      rw [hpc] at a b c
      simp only [isWriting, isShared, isReading, e1, e0] at a b c
      refine ⟨?_, ?_, ?_⟩
      · show s.cntr.toNat = 2147483647 * cnt n isWriting (upd s.pc t .reading) + cnt n isShared (upd s.pc t .reading)
        omega
      · show cnt n isWriting (upd s.pc t .reading) ≤ 1
        omega
      · intro hw
        have hw : cnt n isWriting (upd s.pc t .reading) = 1 := hw
        omega
  · split
    · rename_i hlt
      have hlt : s.cntr.toNat < 2147483647 := by
        rw [BitVec.lt_def, sharedWriter_toNat] at hlt
        omega
      have a := hW .reading; have b := hS .reading; have c := hR .reading
      rw [hpc] at a b c
      simp only [isWriting, isShared, isReading, e1, e0] at a b c
      refine ⟨?_, ?_, ?_⟩
      · show (s.cntr + 1).toNat = 2147483647 * cnt n isWriting (upd s.pc t .reading) + cnt n isShared (upd s.pc t .reading)
        rw [hadd]; omega
      · show cnt n isWriting (upd s.pc t .reading) ≤ 1
        omega
      · intro hw
        have hw : cnt n isWriting (upd s.pc t .reading) = 1 := hw
        omega
    · have a := hW .trySharedSub; have b := hS .trySharedSub; have c := hR .trySharedSub
      rw [hpc] at a b c
      simp only [isWriting, isShared, isReading, e1, e0] at a b c
      refine ⟨?_, ?_, ?_⟩
      · show (s.cntr + 1).toNat = 2147483647 * cnt n isWriting (upd s.pc t .trySharedSub) + cnt n isShared (upd s.pc t .trySharedSub)
        rw [hadd]; omega
      · show cnt n isWriting (upd s.pc t .trySharedSub) ≤ 1
        omega
      · intro hw
        have hw : cnt n isWriting (upd s.pc t .trySharedSub) = 1 := hw
        show cnt n isReading (upd s.pc t .trySharedSub) = 0
        have := hex (by omega)
        omega
  · have a := hW .idle; have b := hS .idle; have c := hR .idle
    have hp : 0 < cnt n isShared s.pc := cnt_pos he (by rw [hpc]; rfl)
    rw [hpc] at a b c
    simp only [isWriting, isShared, isReading, e1, e0] at a b c
    refine ⟨?_, ?_, ?_⟩
    · show (s.cntr - 1).toNat = 2147483647 * cnt n isWriting (upd s.pc t .idle) + cnt n isShared (upd s.pc t .idle)
      rw [hsub (by omega)]; omega
    · show cnt n isWriting (upd s.pc t .idle) ≤ 1
      omega
    · intro hw
      have hw : cnt n isWriting (upd s.pc t .idle) = 1 := hw
      show cnt n isReading (upd s.pc t .idle) = 0
      have := hex (by omega)
      omega
  · cases op <;> simp only []
    case unlockShared =>
      have a := hW .idle; have b := hS .idle; have c := hR .idle
      have hp : 0 < cnt n isShared s.pc := cnt_pos he (by rw [hpc]; rfl)
      rw [hpc] at a b c
      simp only [isWriting, isShared, isReading, e1, e0] at a b c
      refine ⟨?_, ?_, ?_⟩
      · show (s.cntr - 1).toNat = 2147483647 * cnt n isWriting (upd s.pc t .idle) + cnt n isShared (upd s.pc t .idle)
        rw [hsub (by omega)]; omega
      · show cnt n isWriting (upd s.pc t .idle) ≤ 1
        omega
      · intro hw
        have hw : cnt n isWriting (upd s.pc t .idle) = 1 := hw
        show cnt n isReading (upd s.pc t .idle) = 0
        have := hex (by omega)
        omega
    all_goals exact h

theorem sharedInv_run {n : Nat} (hn : n < 2147483647) (es : List (Nat × SharedOp)) (he : ∀ e ∈ es, e.1 < n) :
    SharedInv n (sharedRun es) := by
  unfold sharedRun
  have : ∀ (es : List (Nat × SharedOp)) (s : SharedState), (∀ e ∈ es, e.1 < n) → SharedInv n s →
      SharedInv n (es.foldl sharedStep s) := by
    intro es
    induction es with
    | nil => intro s _ h; exact h
    | cons e es ih =>
      intro s he h
      exact ih _ (fun e' h' => he e' (List.mem_cons_of_mem _ h')) (sharedInv_step hn e (he e List.mem_cons_self) h)
  refine this es _ he ⟨?_, ?_, ?_⟩
  · show (0 : BitVec 32).toNat = 2147483647 * cnt n isWriting (fun _ => SharedPc.idle) + cnt n isShared (fun _ => SharedPc.idle)
    rw [cnt_zero (fun _ _ => rfl), cnt_zero (fun _ _ => rfl)]
    rfl
  · show cnt n isWriting (fun _ => SharedPc.idle) ≤ 1
    rw [cnt_zero (fun _ _ => rfl)]
    omega
  · intro _
    exact cnt_zero (fun _ _ => rfl)

/-- A thread that is outside of the threads of the history is idle. -/
theorem sharedRun_idle (es : List (Nat × SharedOp)) (t : Nat) (ht : ∀ e ∈ es, e.1 ≠ t) : (sharedRun es).pc t = .idle := by
  unfold sharedRun
  have step : ∀ (s : SharedState) (e : Nat × SharedOp), e.1 ≠ t → (sharedStep s e).pc t = s.pc t := by
    intro s e hne
    have hu : ∀ p, upd s.pc e.1 p t = s.pc t := fun p => upd_ne _ _ (Ne.symm hne)
    unfold sharedStep
    cases s.pc e.1 <;> simp only []
    case idle => cases e.2 <;> first | exact hu _ | rfl
    case writing => cases e.2 <;> first | exact hu _ | rfl
    case reading => cases e.2 <;> first | exact hu _ | rfl
    all_goals first | exact hu _ | (split <;> first | exact hu _ | rfl)
  have : ∀ (es : List (Nat × SharedOp)) (s : SharedState), (∀ e ∈ es, e.1 ≠ t) → (es.foldl sharedStep s).pc t = s.pc t := by
    intro es
    induction es with
    | nil => intro s _; rfl
    | cons e es ih =>
      intro s h
      rw [List.foldl_cons, ih _ (fun e' h' => h e' (List.mem_cons_of_mem _ h')), step s e (h e List.mem_cons_self)]
  exact this es _ ht

end Gapp.Model
