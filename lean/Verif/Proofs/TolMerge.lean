import Mathlib.Logic.Relation
import Verif.Proofs.MergePareto
/-! Proofs about `mergeParetoSets` that do not need transitive comparisons. -/

namespace Gapp.Model
open Gapp.Spec

section Abstract
variable {nl nr : Nat} {less : Bool → Nat → Nat → Bool} {comp : Nat → Nat → Int}

/-- What `mergeBody` does with an element that is not dominated. -/
theorem mergeBody_facts (own s : PD) (lr rl : Bool) (c : Int) (h1 : c < 0 → lr = true) (h2 : c > 0 → rl = true) :
    let r := mergeBody own s lr rl c
    (own ≠ .dominated → r.1 = .dominated → lr = true ∧ s ≠ .dominated ∧ r.2 ≠ some .dominated) ∧
    (r.2 = some .dominated → rl = true ∧ r.1 ≠ .dominated) ∧
    (r.2 ≠ some .unknown) ∧ (own = .dominated → r.1 = .dominated ∧ r.2 = none) := by
  dsimp only
  unfold mergeBody
  split
  · rename_i e; subst e; simp
  · rename_i hown
    split
    · rename_i e; subst e; simp [hown]
    · rename_i hs
      split
      · rename_i e; subst e
        refine ⟨by simp, ?_, ?_, by simp⟩
        · dsimp only; split <;> simp_all
        · dsimp only; split <;> simp
      · rename_i hno
        split
        · rename_i e; subst e
          refine ⟨?_, by simp, by simp, fun e => absurd e hown⟩
          intro _; dsimp only; split
          · rename_i hl; simp [hl]
          · intro e; exact absurd e hown
        · split
          · rename_i hc
            exact ⟨fun _ _ => ⟨h1 hc, hs, by simp⟩, by simp, by simp, fun e => absurd e hown⟩
          · split
            · rename_i hc
              exact ⟨by simp, fun _ => ⟨h2 hc, by simp⟩, by simp, fun e => absurd e hown⟩
            · exact ⟨fun _ e => absurd e hown, by simp, by simp, fun e => absurd e hown⟩

/-- The comparisons between the two sets; `(false, i)` is the element `i` of `lhs`, `(true, j)` is the element `j` of `rhs`. -/
def MergeEdge (nl nr : Nat) (less : Bool → Nat → Nat → Bool) (x y : Bool × Nat) : Prop :=
  x.1 ≠ y.1 ∧ x.2 < (if x.1 then nr else nl) ∧ y.2 < (if y.1 then nr else nl) ∧ less x.1 x.2 y.2 = true

/-- The flag of an element. -/
def MergeState.flag (st : MergeState) (x : Bool × Nat) : PD := if x.1 then st.rhs x.2 else st.lhs x.2

/-- The next step of the task of this element of `lhs` will find it dominated. -/
def MergeState.doomed (less : Bool → Nat → Nat → Bool) (comp : Nat → Nat → Int) (st : MergeState) (x : Bool × Nat) : Prop :=
  x.1 = false ∧ ∃ s, st.loaded x.2 = some s ∧
    (mergeBody (st.lhs x.2) s (less false x.2 (st.pc x.2)) (less true (st.pc x.2) x.2) (comp x.2 (st.pc x.2))).1 = .dominated

/-- Every element leads to one that stays. -/
def MergeLeads (nl nr : Nat) (less : Bool → Nat → Nat → Bool) (comp : Nat → Nat → Int) (st : MergeState) : Prop :=
  ∀ x : Bool × Nat, x.2 < (if x.1 then nr else nl) → ∃ y : Bool × Nat, y.2 < (if y.1 then nr else nl) ∧
    Relation.ReflTransGen (MergeEdge nl nr less) x y ∧ st.flag y ≠ .dominated ∧ ¬ st.doomed less comp y

/-- The comparisons of the loop imply the relation. -/
structure MergeSub (nl nr : Nat) (less : Bool → Nat → Nat → Bool) (comp : Nat → Nat → Int) : Prop where
  neg : ∀ i j, i < nl → j < nr → comp i j < 0 → less false i j = true
  pos : ∀ i j, i < nl → j < nr → comp i j > 0 → less true j i = true

theorem mergeLeads_init : MergeLeads nl nr less comp MergeState.init := by
  intro x hx
  refine ⟨x, hx, .refl, ?_, ?_⟩
  · simp [MergeState.flag, MergeState.init]
  · rintro ⟨-, s, hs, -⟩
    simp [MergeState.init] at hs

theorem mergeLeads_step (h : MergeSub nl nr less comp) {st : MergeState} (hi : MergeLeads nl nr less comp st) (i : Nat) :
    MergeLeads nl nr less comp (mergeStep nl nr less comp st i) := by
  unfold mergeStep
  split
  · rename_i hcond
    obtain ⟨hin, hjn⟩ := hcond
    dsimp only
    split
    · -- load
      intro x hx
      obtain ⟨⟨b, k⟩, hy, hp, hf, hd⟩ := hi x hx
      by_cases hki : b = false ∧ k = i
      · obtain ⟨rfl, rfl⟩ := hki
        have hown : st.lhs k ≠ .dominated := hf
        obtain ⟨f1, -⟩ := mergeBody_facts (st.lhs k) (st.rhs (st.pc k)) (less false k (st.pc k)) (less true (st.pc k) k) (comp k (st.pc k))
          (h.neg k _ hin hjn) (h.pos k _ hin hjn)
        by_cases hdm : (mergeBody (st.lhs k) (st.rhs (st.pc k)) (less false k (st.pc k)) (less true (st.pc k) k) (comp k (st.pc k))).1 = .dominated
        · obtain ⟨g1, g2, -⟩ := f1 hown hdm
          refine ⟨(true, st.pc k), hjn, hp.tail ⟨by simp, hin, hjn, g1⟩, g2, ?_⟩
          rintro ⟨h1, -⟩; simp at h1
        · refine ⟨(false, k), hin, hp, hf, ?_⟩
          rintro ⟨-, s, hs, hs2⟩
          dsimp only at hs hs2
          rw [upd_same] at hs
          obtain rfl := Option.some.inj hs
          exact hdm hs2
      · refine ⟨(b, k), hy, hp, hf, ?_⟩
        rintro ⟨h1, s, hs, hs2⟩
        dsimp only at h1 hs hs2
        have : k ≠ i := fun e => hki ⟨h1, e⟩
        rw [upd_ne _ _ this] at hs
        exact hd ⟨h1, s, hs, hs2⟩
    · rename_i s hs
      obtain ⟨f1, f2, f3, f4⟩ := mergeBody_facts (st.lhs i) s (less false i (st.pc i)) (less true (st.pc i) i) (comp i (st.pc i))
          (h.neg i _ hin hjn) (h.pos i _ hin hjn)
      intro x hx
      obtain ⟨⟨b, k⟩, hy, hp, hf, hd⟩ := hi x hx
      have hnd : ¬ (MergeState.mk (upd st.lhs i (mergeBody (st.lhs i) s (less false i (st.pc i)) (less true (st.pc i) i) (comp i (st.pc i))).1)
          (store st.rhs (st.pc i) (mergeBody (st.lhs i) s (less false i (st.pc i)) (less true (st.pc i) i) (comp i (st.pc i))).2)
          (upd st.pc i (st.pc i + 1)) (upd st.loaded i none)).doomed less comp (false, i) := by
        rintro ⟨-, s', hs', -⟩
        dsimp only at hs'
        rw [upd_same] at hs'
        cases hs'
      cases b with
      | false =>
        by_cases hki : k = i
        · subst hki
          refine ⟨(false, k), hin, hp, ?_, hnd⟩
          simp only [MergeState.flag, Bool.false_eq_true, if_false, upd_same]
          intro e
          exact hd ⟨rfl, s, hs, e⟩
        · refine ⟨(false, k), hy, hp, ?_, ?_⟩
          · simp only [MergeState.flag, Bool.false_eq_true, if_false, upd_ne _ _ hki]
            exact hf
          · rintro ⟨-, s', hs', hs2⟩
            dsimp only at hs' hs2
            rw [upd_ne _ _ hki] at hs' hs2
            rw [upd_ne _ _ hki] at hs2
            exact hd ⟨rfl, s', hs', hs2⟩
      | true =>
        have hk : st.rhs k ≠ .dominated := hf
        by_cases hkj : k = st.pc i
        · subst hkj
          generalize mergeBody (st.lhs i) s (less false i (st.pc i)) (less true (st.pc i) i) (comp i (st.pc i)) = r at *
          cases hr : r.2 with
          | none =>
            refine ⟨(true, st.pc i), hy, hp, ?_, by rintro ⟨h1, -⟩; simp at h1⟩
            simpa [MergeState.flag, store] using hk
          | some v =>
            cases v with
            | unknown => exact absurd hr f3
            | optimal =>
              refine ⟨(true, st.pc i), hy, hp, ?_, by rintro ⟨h1, -⟩; simp at h1⟩
              simp [MergeState.flag, store, upd_same]
            | dominated =>
              obtain ⟨g1, g2⟩ := f2 hr
              refine ⟨(false, i), hin, hp.tail ⟨by simp, hjn, hin, g1⟩, ?_, by rw [hr] at hnd; exact hnd⟩
              simp only [MergeState.flag, Bool.false_eq_true, if_false, upd_same]
              exact g2
        · refine ⟨(true, k), hy, hp, ?_, by rintro ⟨h1, -⟩; simp at h1⟩
          have : store st.rhs (st.pc i) (mergeBody (st.lhs i) s (less false i (st.pc i)) (less true (st.pc i) i) (comp i (st.pc i))).2 k = st.rhs k := by
            generalize mergeBody (st.lhs i) s (less false i (st.pc i)) (less true (st.pc i) i) (comp i (st.pc i)) = r
            cases r.2 with
            | none => rfl
            | some v => exact upd_ne _ _ hkj
          simp only [MergeState.flag, if_true, this]
          exact hk
  · exact hi

/-- Everything that is removed is beaten, directly or through a chain, by something that stays. -/
theorem mergeLeads_run (h : MergeSub nl nr less comp) (sched : List Nat) :
    MergeLeads nl nr less comp (mergeRun nl nr less comp sched) := by
  unfold mergeRun
  suffices ∀ (sched : List Nat) (st : MergeState), MergeLeads nl nr less comp st →
      MergeLeads nl nr less comp (sched.foldl (mergeStep nl nr less comp) st) from this _ _ mergeLeads_init
  intro sched
  induction sched with
  | nil => intro st hst; exact hst
  | cons i sched ih => intro st hst; exact ih _ (mergeLeads_step h hst i)

/-- Everything that is marked as dominated is beaten by an element of the other set. -/
structure MergeSound (nl nr : Nat) (less : Bool → Nat → Nat → Bool) (st : MergeState) : Prop where
  l1 : ∀ i, i < nl → st.lhs i = .dominated → ∃ j, j < nr ∧ less false i j = true
  r1 : ∀ j, j < nr → st.rhs j = .dominated → ∃ i, i < nl ∧ less true j i = true

theorem mergeSound_step (h : MergeSub nl nr less comp) {st : MergeState} (hi : MergeSound nl nr less st) (i : Nat) :
    MergeSound nl nr less (mergeStep nl nr less comp st i) := by
  unfold mergeStep
  split
  · rename_i hcond
    obtain ⟨hin, hjn⟩ := hcond
    dsimp only
    split
    · exact ⟨hi.l1, hi.r1⟩
    · rename_i s hs
      obtain ⟨f1, f2, f3, f4⟩ := mergeBody_facts (st.lhs i) s (less false i (st.pc i)) (less true (st.pc i) i) (comp i (st.pc i))
          (h.neg i _ hin hjn) (h.pos i _ hin hjn)
      generalize mergeBody (st.lhs i) s (less false i (st.pc i)) (less true (st.pc i) i) (comp i (st.pc i)) = r at *
      refine ⟨?_, ?_⟩
      · intro k hk e
        dsimp only at e
        by_cases hki : k = i
        · subst hki
          rw [upd_same] at e
          by_cases hown : st.lhs k = .dominated
          · exact hi.l1 k hk hown
          · exact ⟨_, hjn, (f1 hown e).1⟩
        · rw [upd_ne _ _ hki] at e; exact hi.l1 k hk e
      · intro k hk e
        dsimp only at e
        cases hr : r.2 with
        | none => rw [hr] at e; exact hi.r1 k hk e
        | some v =>
          rw [hr, store] at e
          by_cases hkj : k = st.pc i
          · subst hkj
            rw [upd_same] at e
            subst e
            exact ⟨i, hin, (f2 hr).1⟩
          · rw [upd_ne _ _ hkj] at e; exact hi.r1 k hk e
  · exact hi

theorem mergeSound_run (h : MergeSub nl nr less comp) (sched : List Nat) :
    MergeSound nl nr less (mergeRun nl nr less comp sched) := by
  unfold mergeRun
  suffices ∀ (sched : List Nat) (st : MergeState), MergeSound nl nr less st →
      MergeSound nl nr less (sched.foldl (mergeStep nl nr less comp) st) from
    this _ _ ⟨by simp [MergeState.init], by simp [MergeState.init]⟩
  intro sched
  induction sched with
  | nil => intro st hst; exact hst
  | cons i sched ih => intro st hst; exact ih _ (mergeSound_step h hst i)

/-- What the proof needs of two comparisons, of which the strict one `D` (that of `paretoCompare`) implies the other one: no chains across the two sets that begin with a
strict comparison. `D false i j`: element `i` of `lhs` is definitely worse than `j` of `rhs`; `D true j i`: the converse. -/
structure MergeHyp2 (nl nr : Nat) (less : Bool → Nat → Nat → Bool) (D : Bool → Nat → Nat → Prop) (comp : Nat → Nat → Int) : Prop where
  subL : ∀ i j, i < nl → j < nr → D false i j → less false i j = true
  subR : ∀ j i, j < nr → i < nl → D true j i → less true j i = true
  noChainL : ∀ i j k, i < nl → j < nr → k < nl → D false i j → less true j k = true → False
  noChainR : ∀ j i k, j < nr → i < nl → k < nr → D true j i → less false i k = true → False
  neg : ∀ i j, i < nl → j < nr → (comp i j < 0 ↔ D false i j)
  pos : ∀ i j, i < nl → j < nr → (comp i j > 0 ↔ D true j i)

structure MergeInv2 (nl nr : Nat) (less : Bool → Nat → Nat → Bool) (D : Bool → Nat → Nat → Prop) (st : MergeState) : Prop where
  l1 : ∀ i, i < nl → st.lhs i = .dominated → ∃ j, j < nr ∧ less false i j = true
  l2 : ∀ i, i < nl → st.lhs i = .optimal → ∃ j, j < nr ∧ D true j i
  r1 : ∀ j, j < nr → st.rhs j = .dominated → ∃ i, i < nl ∧ less true j i = true
  r2 : ∀ j, j < nr → st.rhs j = .optimal → ∃ i, i < nl ∧ D false i j
  ld1 : ∀ i s, i < nl → st.pc i < nr → st.loaded i = some s → s = .dominated → st.rhs (st.pc i) = .dominated
  ld2 : ∀ i s, i < nl → st.pc i < nr → st.loaded i = some s → s = .optimal →
    ∃ k, k < nl ∧ D false k (st.pc i)
  c1 : ∀ i j, i < nl → j < st.pc i → D false i j → st.lhs i = .dominated
  c2 : ∀ i j, i < nl → j < st.pc i → D true j i → st.rhs j = .dominated
  pcle : ∀ i, i < nl → st.pc i ≤ nr

theorem mergeInv2_init {D : Bool → Nat → Nat → Prop} : MergeInv2 nl nr less D MergeState.init := by
  constructor <;> simp [MergeState.init]

/-- The facts about the body that the invariant needs. -/
theorem mergeBody2_spec {D : Bool → Nat → Nat → Prop} (h : MergeHyp2 nl nr less D comp) {st : MergeState} (hi : MergeInv2 nl nr less D st)
    {i : Nat} (hin : i < nl) (hjn : st.pc i < nr) {s : PD} (hs : st.loaded i = some s) :
    let r := mergeBody (st.lhs i) s (less false i (st.pc i)) (less true (st.pc i) i) (comp i (st.pc i))
    (st.lhs i = .dominated → r.1 = .dominated) ∧
    (r.1 = .dominated → ∃ j, j < nr ∧ less false i j = true) ∧
    (r.1 = .optimal → ∃ j, j < nr ∧ D true j i) ∧
    (r.2 = some .dominated → less true (st.pc i) i = true) ∧
    (r.2 = some .optimal → D false i (st.pc i)) ∧
    (r.2 ≠ some .unknown) ∧
    (D false i (st.pc i) → r.1 = .dominated) ∧
    (D true (st.pc i) i → r.2 = some .dominated ∨ (r.2 = none ∧ s = .dominated)) := by
  have hl1 := hi.l1 i hin
  have hl2 := hi.l2 i hin
  have hld1 := hi.ld1 i s hin hjn hs
  have hld2 := hi.ld2 i s hin hjn hs
  have hr1 := hi.r1 (st.pc i) hjn
  have hsl := h.subL i (st.pc i) hin hjn
  have hsr := h.subR (st.pc i) i hjn hin
  have hneg := h.neg i (st.pc i) hin hjn
  have hpos := h.pos i (st.pc i) hin hjn
  dsimp only
  unfold mergeBody
  generalize st.lhs i = own at *
  split
  · rename_i e; subst e
    refine ⟨fun _ => rfl, fun _ => hl1 rfl, by simp, by simp, by simp, by simp, fun _ => rfl, ?_⟩
    intro hl
    obtain ⟨k, hk, hik⟩ := hl1 rfl
    exact (h.noChainR _ _ _ hjn hin hk hl hik).elim
  · rename_i hown
    split
    · rename_i e; subst e
      obtain ⟨k, hk, hjk⟩ := hr1 (hld1 rfl)
      refine ⟨fun e => absurd e hown, fun e => absurd e hown, hl2, by simp, by simp, by simp, ?_, ?_⟩
      · intro hl; exact (h.noChainL _ _ _ hin hjn hk hl hjk).elim
      · intro _; exact Or.inr ⟨rfl, rfl⟩
    · rename_i hsd
      split
      · rename_i e; subst e
        obtain ⟨k, hk, hki⟩ := hl2 rfl
        refine ⟨fun e => absurd e hown, fun e => absurd e hown, fun _ => ⟨k, hk, hki⟩, ?_, ?_, ?_, ?_, ?_⟩
        · dsimp only; split <;> simp_all
        · dsimp only; split <;> simp
        · dsimp only; split <;> simp
        · intro hl; exact (h.noChainR _ _ _ hk hin hjn hki (hsl hl)).elim
        · intro hl
          cases s with
          | unknown => left; simp [hsr hl]
          | optimal =>
            obtain ⟨k', hk', hkj⟩ := hld2 rfl
            exact (h.noChainL _ _ _ hk' hjn hin hkj (hsr hl)).elim
          | dominated => exact absurd rfl hsd
      · rename_i hno
        split
        · rename_i e; subst e
          obtain ⟨k', hk', hkj⟩ := hld2 rfl
          refine ⟨fun e => absurd e hown, ?_, ?_, by simp, by simp, by simp, ?_, ?_⟩
          · dsimp only; split
            · rename_i hl; exact fun _ => ⟨_, hjn, hl⟩
            · intro e; exact absurd e hown
          · dsimp only; split
            · simp
            · intro e; exact absurd e hno
          · intro hl; simp [hsl hl]
          · intro hl; exact (h.noChainL _ _ _ hk' hjn hin hkj (hsr hl)).elim
        · rename_i hso
          split
          · rename_i hc
            have hlr := hneg.1 hc
            refine ⟨fun _ => rfl, fun _ => ⟨_, hjn, hsl hlr⟩, by simp, by simp, fun _ => hlr, by simp, fun _ => rfl, ?_⟩
            intro hl; exact (h.noChainL _ _ _ hin hjn hin hlr (hsr hl)).elim
          · rename_i hc
            split
            · rename_i hc2
              have hrl := hpos.1 hc2
              refine ⟨fun e => absurd e hown, by simp, fun _ => ⟨_, hjn, hrl⟩, fun _ => hsr hrl, by simp, by simp, ?_,
                fun _ => Or.inl rfl⟩
              intro hl; exact absurd (hneg.2 hl) hc
            · rename_i hc2
              refine ⟨fun e => absurd e hown, fun e => absurd e hown, fun e => absurd e hno, by simp, by simp,
                by simp, ?_, ?_⟩
              · intro hl; exact absurd (hneg.2 hl) hc
              · intro hl; exact absurd (hpos.2 hl) hc2

theorem mergeInv2_step {D : Bool → Nat → Nat → Prop} (h : MergeHyp2 nl nr less D comp) {st : MergeState} (hi : MergeInv2 nl nr less D st) (i : Nat) :
    MergeInv2 nl nr less D (mergeStep nl nr less comp st i) := by
  unfold mergeStep
  split
  · rename_i hcond
    obtain ⟨hin, hjn⟩ := hcond
    dsimp only
    split
    · -- load
      refine { hi with ld1 := ?_, ld2 := ?_ }
      · intro k s hk hpk hls e
        dsimp only at hpk hls ⊢
        by_cases hki : k = i
        · subst hki; rw [upd_same] at hls; cases hls; exact e
        · rw [upd_ne _ _ hki] at hls; exact hi.ld1 k s hk hpk hls e
      · intro k s hk hpk hls e
        dsimp only at hpk hls ⊢
        by_cases hki : k = i
        · subst hki; rw [upd_same] at hls; cases hls; exact hi.r2 _ hjn e
        · rw [upd_ne _ _ hki] at hls; exact hi.ld2 k s hk hpk hls e
    · -- execute
      rename_i s hs
      obtain ⟨b1, b2, b3, b4, b5, b6, b7, b8⟩ := mergeBody2_spec h hi hin hjn hs
      generalize mergeBody (st.lhs i) s (less false i (st.pc i)) (less true (st.pc i) i) (comp i (st.pc i)) = r at *
      generalize hj : st.pc i = j at *
      generalize hrhs : store st.rhs j r.2 = rhs'
      have hr_ne : ∀ k, k ≠ j → rhs' k = st.rhs k := by
        intro k hk; rw [← hrhs]; rcases hv : r.2 with _ | v
        · rfl
        · exact upd_ne _ _ hk
      have hr_dom : ∀ k, k < nr → st.rhs k = .dominated → rhs' k = .dominated := by
        intro k hk hd
        by_cases hkj : k = j
        · subst hkj
          rw [← hrhs]; rcases hv : r.2 with _ | v
          · exact hd
          · rw [store, upd_same]
            cases v with
            | unknown => exact absurd hv b6
            | optimal =>
              obtain ⟨k', hk', hl⟩ := hi.r1 _ hk hd
              exact (h.noChainL _ _ _ hin hjn hk' (b5 hv) hl).elim
            | dominated => rfl
        · rw [hr_ne k hkj]; exact hd
      have hr_j : (rhs' j = .dominated → ∃ i, i < nl ∧ less true j i = true) ∧
          (rhs' j = .optimal → ∃ i, i < nl ∧ D false i j) := by
        rw [← hrhs]; rcases hv : r.2 with _ | v
        · exact ⟨hi.r1 j hjn, hi.r2 j hjn⟩
        · rw [store, upd_same]
          refine ⟨?_, ?_⟩
          · rintro rfl; exact ⟨i, hin, b4 hv⟩
          · rintro rfl; exact ⟨i, hin, b5 hv⟩
      refine ⟨?_, ?_, ?_, ?_, ?_, ?_, ?_, ?_, ?_⟩ <;> dsimp only
      · intro k hk e
        by_cases hki : k = i
        · subst hki; rw [upd_same] at e; exact b2 e
        · rw [upd_ne _ _ hki] at e; exact hi.l1 k hk e
      · intro k hk e
        by_cases hki : k = i
        · subst hki; rw [upd_same] at e; exact b3 e
        · rw [upd_ne _ _ hki] at e; exact hi.l2 k hk e
      · intro k hk e
        by_cases hkj : k = j
        · subst hkj; exact hr_j.1 e
        · rw [hr_ne k hkj] at e; exact hi.r1 k hk e
      · intro k hk e
        by_cases hkj : k = j
        · subst hkj; exact hr_j.2 e
        · rw [hr_ne k hkj] at e; exact hi.r2 k hk e
      · intro k s' hk hpk hls e
        by_cases hki : k = i
        · subst hki; rw [upd_same] at hls; cases hls
        · rw [upd_ne _ _ hki] at hls hpk ⊢
          exact hr_dom _ hpk (hi.ld1 k s' hk hpk hls e)
      · intro k s' hk hpk hls e
        by_cases hki : k = i
        · subst hki; rw [upd_same] at hls; cases hls
        · rw [upd_ne _ _ hki] at hls hpk ⊢
          exact hi.ld2 k s' hk hpk hls e
      · intro k q hk hq hl
        by_cases hki : k = i
        · subst hki; rw [upd_same] at hq ⊢
          by_cases hqj : q = j
          · subst hqj; exact b7 hl
          · exact b1 (hi.c1 k q hk (by omega) hl)
        · rw [upd_ne _ _ hki] at hq ⊢; exact hi.c1 k q hk hq hl
      · intro k q hk hq hl
        by_cases hki : k = i
        · subst hki; rw [upd_same] at hq
          by_cases hqj : q = j
          · subst hqj
            rcases b8 hl with e | ⟨e1, e2⟩
            · rw [← hrhs, e]; exact upd_same _ _ _
            · rw [← hrhs, e1]
              have := hi.ld1 k s hk (by omega) hs e2
              rw [hj] at this; exact this
          · exact hr_dom q (by omega) (hi.c2 k q hk (by omega) hl)
        · rw [upd_ne _ _ hki] at hq
          exact hr_dom q (by have := hi.pcle k hk; omega) (hi.c2 k q hk hq hl)
      · intro k hk
        by_cases hki : k = i
        · subst hki; rw [upd_same]; omega
        · rw [upd_ne _ _ hki]; exact hi.pcle k hk
  · exact hi

theorem mergeInv2_run {D : Bool → Nat → Nat → Prop} (h : MergeHyp2 nl nr less D comp) (sched : List Nat) :
    MergeInv2 nl nr less D (mergeRun nl nr less comp sched) := by
  unfold mergeRun
  suffices ∀ (sched : List Nat) (st : MergeState), MergeInv2 nl nr less D st →
      MergeInv2 nl nr less D (sched.foldl (mergeStep nl nr less comp) st) from this _ _ mergeInv2_init
  intro sched
  induction sched with
  | nil => intro st hst; exact hst
  | cons i sched ih => intro st hst; exact ih _ (mergeInv2_step h hst i)

/-- The flags after a complete schedule. -/
theorem merge2_final {D : Bool → Nat → Nat → Prop} (h : MergeHyp2 nl nr less D comp) (sched : List Nat)
    (hd : mergeDone nl nr (mergeRun nl nr less comp sched)) :
    (∀ i j, i < nl → j < nr → D false i j → (mergeRun nl nr less comp sched).lhs i = .dominated) ∧
    (∀ j i, j < nr → i < nl → D true j i → (mergeRun nl nr less comp sched).rhs j = .dominated) := by
  have hi := mergeInv2_run h sched
  refine ⟨fun i j hin hj hl => ?_, fun j i hjn hin hl => ?_⟩
  · exact hi.c1 i j hin (by rw [hd i hin]; exact hj) hl
  · exact hi.c2 i j hin (by rw [hd i hin]; exact hjn) hl

end Abstract

end Gapp.Model
