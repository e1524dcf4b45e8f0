import Verif.Model.MergePareto
import Verif.Proofs.ListAux
import Verif.Proofs.Float
/-! Proofs about `mergeParetoSets`. -/

namespace Gapp.Model
open Gapp.Spec

section Abstract
variable {nl nr : Nat} {less : Bool → Nat → Nat → Bool} {comp : Nat → Nat → Int}

/-- What the proof needs of the comparisons: no chains across the two sets, and consistent comparisons. -/
structure MergeHyp (nl nr : Nat) (less : Bool → Nat → Nat → Bool) (comp : Nat → Nat → Int) : Prop where
  noChainL : ∀ i j k, i < nl → j < nr → k < nl → less false i j = true → less true j k = true → False
  noChainR : ∀ j i k, j < nr → i < nl → k < nr → less true j i = true → less false i k = true → False
  neg : ∀ i j, i < nl → j < nr → (comp i j < 0 ↔ less false i j = true)
  pos : ∀ i j, i < nl → j < nr → (comp i j > 0 ↔ less true j i = true)

structure MergeInv (nl nr : Nat) (less : Bool → Nat → Nat → Bool) (st : MergeState) : Prop where
  l1 : ∀ i, i < nl → st.lhs i = .dominated → ∃ j, j < nr ∧ less false i j = true
  l2 : ∀ i, i < nl → st.lhs i = .optimal → ∃ j, j < nr ∧ less true j i = true
  r1 : ∀ j, j < nr → st.rhs j = .dominated → ∃ i, i < nl ∧ less true j i = true
  r2 : ∀ j, j < nr → st.rhs j = .optimal → ∃ i, i < nl ∧ less false i j = true
  ld1 : ∀ i s, i < nl → st.pc i < nr → st.loaded i = some s → s = .dominated → st.rhs (st.pc i) = .dominated
  ld2 : ∀ i s, i < nl → st.pc i < nr → st.loaded i = some s → s = .optimal →
    ∃ k, k < nl ∧ less false k (st.pc i) = true
  c1 : ∀ i j, i < nl → j < st.pc i → less false i j = true → st.lhs i = .dominated
  c2 : ∀ i j, i < nl → j < st.pc i → less true j i = true → st.rhs j = .dominated
  pcle : ∀ i, i < nl → st.pc i ≤ nr

theorem mergeInv_init : MergeInv nl nr less MergeState.init := by
  constructor <;> simp [MergeState.init]

theorem upd_same {β : Type} (f : Nat → β) (i : Nat) (v : β) : upd f i v i = v := by simp [upd]
theorem upd_ne {β : Type} (f : Nat → β) {i k : Nat} (v : β) (h : k ≠ i) : upd f i v k = f k := by
  simp [upd, h]

/-- The facts about the body that the invariant needs. -/
theorem mergeBody_spec (h : MergeHyp nl nr less comp) {st : MergeState} (hi : MergeInv nl nr less st)
    {i : Nat} (hin : i < nl) (hjn : st.pc i < nr) {s : PD} (hs : st.loaded i = some s) :
    let r := mergeBody (st.lhs i) s (less false i (st.pc i)) (less true (st.pc i) i) (comp i (st.pc i))
    (st.lhs i = .dominated → r.1 = .dominated) ∧
    (r.1 = .dominated → ∃ j, j < nr ∧ less false i j = true) ∧
    (r.1 = .optimal → ∃ j, j < nr ∧ less true j i = true) ∧
    (r.2 = some .dominated → less true (st.pc i) i = true) ∧
    (r.2 = some .optimal → less false i (st.pc i) = true) ∧
    (r.2 ≠ some .unknown) ∧
    (less false i (st.pc i) = true → r.1 = .dominated) ∧
    (less true (st.pc i) i = true → r.2 = some .dominated ∨ (r.2 = none ∧ s = .dominated)) := by
  have hl1 := hi.l1 i hin
  have hl2 := hi.l2 i hin
  have hld1 := hi.ld1 i s hin hjn hs
  have hld2 := hi.ld2 i s hin hjn hs
  have hr1 := hi.r1 (st.pc i) hjn
  have hneg := h.neg i (st.pc i) hin hjn
  have hpos := h.pos i (st.pc i) hin hjn
  dsimp only
  unfold mergeBody
  generalize st.lhs i = own at *
  split
  · rename_i e; subst e
    refine ⟨fun _ => rfl, fun _ => hl1 rfl, by simp, by simp, by simp, by simp, fun _ => rfl, ?_⟩
    intro hl
    obtain ⟨k, hk, hik⟩ := hl1 rfl
    exact (h.noChainR _ _ _ hjn hin hk hl hik).elim
  · rename_i hown
    split
    · rename_i e; subst e
      obtain ⟨k, hk, hjk⟩ := hr1 (hld1 rfl)
      refine ⟨fun e => absurd e hown, fun e => absurd e hown, hl2, by simp, by simp, by simp, ?_, ?_⟩
      · intro hl; exact (h.noChainL _ _ _ hin hjn hk hl hjk).elim
      · intro _; exact Or.inr ⟨rfl, rfl⟩
    · rename_i hsd
      split
      · rename_i e; subst e
        obtain ⟨k, hk, hki⟩ := hl2 rfl
        refine ⟨fun e => absurd e hown, fun e => absurd e hown, fun _ => ⟨k, hk, hki⟩, ?_, ?_, ?_, ?_, ?_⟩
        · dsimp only; split <;> simp_all
        · dsimp only; split <;> simp
        · dsimp only; split <;> simp
        · intro hl; exact (h.noChainR _ _ _ hk hin hjn hki hl).elim
        · intro hl
          cases s with
          | unknown => left; simp [hl]
          | optimal =>
            obtain ⟨k', hk', hkj⟩ := hld2 rfl
            exact (h.noChainL _ _ _ hk' hjn hin hkj hl).elim
          | dominated => exact absurd rfl hsd
      · rename_i hno
        split
        · rename_i e; subst e
          obtain ⟨k', hk', hkj⟩ := hld2 rfl
          refine ⟨fun e => absurd e hown, ?_, ?_, by simp, by simp, by simp, ?_, ?_⟩
          · dsimp only; split
            · rename_i hl; exact fun _ => ⟨_, hjn, hl⟩
            · intro e; exact absurd e hown
          · dsimp only; split
            · simp
            · intro e; exact absurd e hno
          · intro hl; simp [hl]
          · intro hl; exact (h.noChainL _ _ _ hk' hjn hin hkj hl).elim
        · rename_i hso
          split
          · rename_i hc
            have hlr := hneg.1 hc
            refine ⟨fun _ => rfl, fun _ => ⟨_, hjn, hlr⟩, by simp, by simp, fun _ => hlr, by simp, fun _ => rfl, ?_⟩
            intro hl; exact (h.noChainL _ _ _ hin hjn hin hlr hl).elim
          · rename_i hc
            split
            · rename_i hc2
              have hrl := hpos.1 hc2
              refine ⟨fun e => absurd e hown, by simp, fun _ => ⟨_, hjn, hrl⟩, fun _ => hrl, by simp, by simp, ?_,
                fun _ => Or.inl rfl⟩
              intro hl; exact absurd (hneg.2 hl) hc
            · rename_i hc2
              refine ⟨fun e => absurd e hown, fun e => absurd e hown, fun e => absurd e hno, by simp, by simp,
                by simp, ?_, ?_⟩
              · intro hl; exact absurd (hneg.2 hl) hc
              · intro hl; exact absurd (hpos.2 hl) hc2

theorem mergeInv_step (h : MergeHyp nl nr less comp) {st : MergeState} (hi : MergeInv nl nr less st) (i : Nat) :
    MergeInv nl nr less (mergeStep nl nr less comp st i) := by
  unfold mergeStep
  split
  · rename_i hcond
    obtain ⟨hin, hjn⟩ := hcond
    dsimp only
    split
    · -- load
      refine { hi with ld1 := ?_, ld2 := ?_ }
      · intro k s hk hpk hls e
        dsimp only at hpk hls ⊢
        by_cases hki : k = i
        · subst hki; rw [upd_same] at hls; cases hls; exact e
        · rw [upd_ne _ _ hki] at hls; exact hi.ld1 k s hk hpk hls e
      · intro k s hk hpk hls e
        dsimp only at hpk hls ⊢
        by_cases hki : k = i
        · subst hki; rw [upd_same] at hls; cases hls; exact hi.r2 _ hjn e
        · rw [upd_ne _ _ hki] at hls; exact hi.ld2 k s hk hpk hls e
    · -- execute
      rename_i s hs
      obtain ⟨b1, b2, b3, b4, b5, b6, b7, b8⟩ := mergeBody_spec h hi hin hjn hs
      generalize mergeBody (st.lhs i) s (less false i (st.pc i)) (less true (st.pc i) i) (comp i (st.pc i)) = r at *
      generalize hj : st.pc i = j at *
      generalize hrhs : store st.rhs j r.2 = rhs'
      have hr_ne : ∀ k, k ≠ j → rhs' k = st.rhs k := by
        intro k hk; rw [← hrhs]; rcases hv : r.2 with _ | v
        · rfl
        · exact upd_ne _ _ hk
      have hr_dom : ∀ k, k < nr → st.rhs k = .dominated → rhs' k = .dominated := by
        intro k hk hd
        by_cases hkj : k = j
        · subst hkj
          rw [← hrhs]; rcases hv : r.2 with _ | v
          · exact hd
          · rw [store, upd_same]
            cases v with
            | unknown => exact absurd hv b6
            | optimal =>
              obtain ⟨k', hk', hl⟩ := hi.r1 _ hk hd
              exact (h.noChainL _ _ _ hin hjn hk' (b5 hv) hl).elim
            | dominated => rfl
        · rw [hr_ne k hkj]; exact hd
      have hr_j : (rhs' j = .dominated → ∃ i, i < nl ∧ less true j i = true) ∧
          (rhs' j = .optimal → ∃ i, i < nl ∧ less false i j = true) := by
        rw [← hrhs]; rcases hv : r.2 with _ | v
        · exact ⟨hi.r1 j hjn, hi.r2 j hjn⟩
        · rw [store, upd_same]
          refine ⟨?_, ?_⟩
          · rintro rfl; exact ⟨i, hin, b4 hv⟩
          · rintro rfl; exact ⟨i, hin, b5 hv⟩
      refine ⟨?_, ?_, ?_, ?_, ?_, ?_, ?_, ?_, ?_⟩ <;> dsimp only
      · intro k hk e
        by_cases hki : k = i
        · subst hki; rw [upd_same] at e; exact b2 e
        · rw [upd_ne _ _ hki] at e; exact hi.l1 k hk e
      · intro k hk e
        by_cases hki : k = i
        · subst hki; rw [upd_same] at e; exact b3 e
        · rw [upd_ne _ _ hki] at e; exact hi.l2 k hk e
      · intro k hk e
        by_cases hkj : k = j
        · subst hkj; exact hr_j.1 e
        · rw [hr_ne k hkj] at e; exact hi.r1 k hk e
      · intro k hk e
        by_cases hkj : k = j
        · subst hkj; exact hr_j.2 e
        · rw [hr_ne k hkj] at e; exact hi.r2 k hk e
      · intro k s' hk hpk hls e
        by_cases hki : k = i
        · subst hki; rw [upd_same] at hls; cases hls
        · rw [upd_ne _ _ hki] at hls hpk ⊢
          exact hr_dom _ hpk (hi.ld1 k s' hk hpk hls e)
      · intro k s' hk hpk hls e
        by_cases hki : k = i
        · subst hki; rw [upd_same] at hls; cases hls
        · rw [upd_ne _ _ hki] at hls hpk ⊢
          exact hi.ld2 k s' hk hpk hls e
      · intro k q hk hq hl
        by_cases hki : k = i
        · subst hki; rw [upd_same] at hq ⊢
          by_cases hqj : q = j
          · subst hqj; exact b7 hl
          · exact b1 (hi.c1 k q hk (by omega) hl)
        · rw [upd_ne _ _ hki] at hq ⊢; exact hi.c1 k q hk hq hl
      · intro k q hk hq hl
        by_cases hki : k = i
        · subst hki; rw [upd_same] at hq
          by_cases hqj : q = j
          · subst hqj
            rcases b8 hl with e | ⟨e1, e2⟩
            · rw [← hrhs, e]; exact upd_same _ _ _
            · rw [← hrhs, e1]
              have := hi.ld1 k s hk (by omega) hs e2
              rw [hj] at this; exact this
          · exact hr_dom q (by omega) (hi.c2 k q hk (by omega) hl)
        · rw [upd_ne _ _ hki] at hq
          exact hr_dom q (by have := hi.pcle k hk; omega) (hi.c2 k q hk hq hl)
      · intro k hk
        by_cases hki : k = i
        · subst hki; rw [upd_same]; omega
        · rw [upd_ne _ _ hki]; exact hi.pcle k hk
  · exact hi

theorem mergeInv_run (h : MergeHyp nl nr less comp) (sched : List Nat) :
    MergeInv nl nr less (mergeRun nl nr less comp sched) := by
  unfold mergeRun
  suffices ∀ (sched : List Nat) (st : MergeState), MergeInv nl nr less st →
      MergeInv nl nr less (sched.foldl (mergeStep nl nr less comp) st) from this _ _ mergeInv_init
  intro sched
  induction sched with
  | nil => intro st hst; exact hst
  | cons i sched ih => intro st hst; exact ih _ (mergeInv_step h hst i)

/-- The flags after a complete schedule. -/
theorem merge_final (h : MergeHyp nl nr less comp) (sched : List Nat)
    (hd : mergeDone nl nr (mergeRun nl nr less comp sched)) :
    (∀ i, i < nl → ((mergeRun nl nr less comp sched).lhs i = .dominated ↔
      ∃ j, j < nr ∧ less false i j = true)) ∧
    (∀ j, j < nr → ((mergeRun nl nr less comp sched).rhs j = .dominated ↔
      ∃ i, i < nl ∧ less true j i = true)) := by
  have hi := mergeInv_run h sched
  refine ⟨fun i hin => ⟨hi.l1 i hin, ?_⟩, fun j hjn => ⟨hi.r1 j hjn, ?_⟩⟩
  · rintro ⟨j, hj, hl⟩; exact hi.c1 i j hin (by rw [hd i hin]; exact hj) hl
  · rintro ⟨i, hin, hl⟩; exact hi.c2 i j hin (by rw [hd i hin]; exact hjn) hl

/-- Progress: each step of a task that is not finished counts. -/
theorem mergeRun_progress (sched : List Nat) (i : Nat) (hi : i < nl) :
    2 * (mergeRun nl nr less comp sched).pc i +
      (if ((mergeRun nl nr less comp sched).loaded i).isSome then 1 else 0) = min (sched.count i) (2 * nr) := by
  unfold mergeRun
  induction sched using Gapp.ListAux.snoc_induction with
  | nil => simp [MergeState.init]
  | append_singleton l k ih =>
    rw [List.foldl_append]
    simp only [List.foldl_cons, List.foldl_nil, List.count_append, List.count_singleton]
    generalize l.foldl (mergeStep nl nr less comp) MergeState.init = st at *
    unfold mergeStep
    by_cases hki : k = i
    · subst hki
      simp only [beq_self_eq_true, if_true]
      split
      · rename_i hc
        split
        · rename_i hl
          simp only [upd_same, hl] at ih ⊢
          simp at ih ⊢; omega
        · rename_i s hl
          simp only [upd_same, hl] at ih ⊢
          simp at ih ⊢; omega
      · rename_i hc
        have : ¬ st.pc k < nr := fun h => hc ⟨hi, h⟩
        split at ih <;> simp_all <;> omega
    · have hne : i ≠ k := fun e => hki e.symm
      have : (k == i) = false := by simpa using hki
      simp only [this]
      split
      · split <;> simp only [upd_ne _ _ hne] <;> simpa using ih
      · simpa using ih

theorem mergeRun_pc (sched : List Nat) (i : Nat) (hi : i < nl) :
    (mergeRun nl nr less comp sched).pc i = min (sched.count i) (2 * nr) / 2 := by
  have h := mergeRun_progress (nl := nl) (nr := nr) (less := less) (comp := comp) sched i hi
  split at h <;> omega

end Abstract

/-! ### Filters with indices -/

theorem filter_zipIdx {α : Type} (l : List α) (p : Nat → Bool) (q : α → Bool)
    (h : ∀ (i : Nat) (hi : i < l.length), p i = q l[i]) :
    (l.zipIdx.filter (fun x => p x.2)).map (·.1) = l.filter q := by
  suffices ∀ (l : List α) (n : Nat), (∀ (i : Nat) (hi : i < l.length), p (n + i) = q l[i]) →
      ((l.zipIdx n).filter (fun x => p x.2)).map (·.1) = l.filter q from
    this l 0 (by simpa using h)
  intro l
  induction l with
  | nil => intro n _; rfl
  | cons a l ih =>
    intro n h
    have h0 := h 0 (by simp)
    simp only [Nat.add_zero, List.getElem_cons_zero] at h0
    have ih := ih (n + 1) (by
      intro i hi
      have := h (i + 1) (by simpa using hi)
      rw [show n + 1 + i = n + (i + 1) by omega]
      simpa using this)
    rw [List.zipIdx_cons, List.filter_cons, List.filter_cons, h0]
    split <;> simp [ih]

end Gapp.Model
