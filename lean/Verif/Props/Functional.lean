import Mathlib.Data.List.Basic
import Mathlib.Data.List.Perm.Basic
import Verif.Spec.Functional
/-!
# C88: function wrappers
-/

namespace Gapp.Model
open Gapp.Spec
variable {σ A R E : Type}

/-! ## Lists of things that may be absent -/

/-- The thing at a position, if there is one. -/
def mofLook {α : Type} (l : List (Option α)) (i : Nat) : Option α := l[i]?.join

theorem mofLook_lt {α : Type} {l : List (Option α)} {i : Nat} {x : α} (h : mofLook l i = some x) : i < l.length := by
  by_contra hc
  rw [mofLook, List.getElem?_eq_none (by omega)] at h
  cases h

theorem mofLook_ge {α : Type} {l : List (Option α)} {i : Nat} (h : l.length ≤ i) : mofLook l i = none := by
  rw [mofLook, List.getElem?_eq_none h]
  rfl

theorem mofLook_set {α : Type} {l : List (Option α)} {i : Nat} (hi : i < l.length) (x : Option α) (j : Nat) : mofLook (l.set i x) j = if i = j then x else mofLook l j := by
  unfold mofLook
  rw [List.getElem?_set]
  split
  · next h =>
    subst h
    simp [hi]
  · rfl

theorem mofLook_append {α : Type} (l : List (Option α)) (x : Option α) (j : Nat) : mofLook (l ++ [x]) j = if j = l.length then x else mofLook l j := by
  unfold mofLook
  split
  · next h =>
    subst h
    simp
  · next h =>
    rcases Nat.lt_or_ge j l.length with hj | hj
    · rw [List.getElem?_append_left hj]
    · rw [List.getElem?_eq_none (by simp; omega), List.getElem?_eq_none hj]

/-- A function with one value changed. -/
def mofUpd {β : Type} (f : Nat → β) (i : Nat) (x : β) : Nat → β := fun j => if i = j then x else f j

theorem mofUpd_self {β : Type} (f : Nat → β) (i : Nat) (x : β) : mofUpd f i x i = x := if_pos rfl

theorem mofUpd_ne {β : Type} (f : Nat → β) {i j : Nat} (x : β) (h : i ≠ j) : mofUpd f i x j = f j := if_neg h

theorem mofLook_set_upd {α : Type} {l : List (Option α)} {i : Nat} (hi : i < l.length) (x : Option α) : mofLook (l.set i x) = mofUpd (mofLook l) i x :=
  funext (fun j => mofLook_set hi x j)

theorem mofLook_append_upd {α : Type} (l : List (Option α)) (x : Option α) : mofLook (l ++ [x]) = mofUpd (mofLook l) l.length x := by
  funext j
  rw [mofLook_append]
  unfold mofUpd
  by_cases h : j = l.length
  · rw [if_pos h, if_pos h.symm]
  · rw [if_neg h, if_neg (Ne.symm h)]

/-! ## Ownership -/

/-- The variables hold what the pointers point to; every object in the free store is owned by exactly one variable. -/
structure Owns (V : Nat → Option (Option Nat)) (H : Nat → Option (FnObj σ)) (W : Nat → Option (Option (FnObj σ))) : Prop where
  val : ∀ i, W i = (V i).map (fun p => p.bind H)
  valid : ∀ i a, V i = some (some a) → ∃ f, H a = some f
  inj : ∀ i j a, V i = some (some a) → V j = some (some a) → i = j
  owned : ∀ a f, H a = some f → ∃ i, V i = some (some a)

/-- A variable without an object becomes another one without an object. -/
theorem Owns.blank {V : Nat → Option (Option Nat)} {H : Nat → Option (FnObj σ)} {W} (h : Owns V H W) {i : Nat} (hi : V i = none ∨ V i = some none) {x : Option (Option Nat)}
    (hx : x = none ∨ x = some none) : Owns (mofUpd V i x) H (mofUpd W i (x.map (fun _ => none))) := by
  have key : ∀ j a, mofUpd V i x j = some (some a) → V j = some (some a) := by
    intro j a hj
    by_cases e : i = j
    · subst e
      rw [mofUpd_self] at hj
      rcases hx with rfl | rfl <;> cases hj
    · rwa [mofUpd_ne _ _ e] at hj
  refine ⟨fun j => ?_, fun j a hj => h.valid j a (key j a hj), fun j k a hj hk => h.inj j k a (key j a hj) (key k a hk), fun a f ha => ?_⟩
  · by_cases e : i = j
    · subst e
      rw [mofUpd_self, mofUpd_self]
      rcases hx with rfl | rfl <;> rfl
    · rw [mofUpd_ne _ _ e, mofUpd_ne _ _ e]
      exact h.val j
  · obtain ⟨j, hj⟩ := h.owned a f ha
    refine ⟨j, ?_⟩
    rw [mofUpd_ne _ _ _]
    · exact hj
    · rintro rfl
      rcases hi with hi | hi <;> rw [hi] at hj <;> cases hj

/-- The object of a variable is deleted. -/
theorem Owns.clear {V : Nat → Option (Option Nat)} {H : Nat → Option (FnObj σ)} {W} (h : Owns V H W) {i a : Nat} (hi : V i = some (some a)) {x : Option (Option Nat)}
    (hx : x = none ∨ x = some none) : Owns (mofUpd V i x) (mofUpd H a none) (mofUpd W i (x.map (fun _ => none))) := by
  have key : ∀ j b, mofUpd V i x j = some (some b) → V j = some (some b) ∧ a ≠ b := by
    intro j b hj
    by_cases e : i = j
    · subst e
      rw [mofUpd_self] at hj
      rcases hx with rfl | rfl <;> cases hj
    · rw [mofUpd_ne _ _ e] at hj
      refine ⟨hj, ?_⟩
      rintro rfl
      exact e (h.inj i j a hi hj)
  refine ⟨fun j => ?_, fun j b hj => ?_, fun j k b hj hk => h.inj j k b (key j b hj).1 (key k b hk).1, fun b f hb => ?_⟩
  · by_cases e : i = j
    · subst e
      rw [mofUpd_self, mofUpd_self]
      rcases hx with rfl | rfl <;> rfl
    · rw [mofUpd_ne _ _ e, mofUpd_ne _ _ e, h.val j]
      cases hj : V j with
      | none => rfl
      | some p =>
        cases p with
        | none => rfl
        | some b =>
          have : a ≠ b := by
            rintro rfl
            exact e (h.inj i j a hi hj)
          simp only [Option.map_some, Option.bind_some]
          rw [mofUpd_ne _ _ this]
  · obtain ⟨h1, h2⟩ := key j b hj
    rw [mofUpd_ne _ _ h2]
    exact h.valid j b h1
  · by_cases e : a = b
    · subst e
      rw [mofUpd_self] at hb
      cases hb
    · rw [mofUpd_ne _ _ e] at hb
      obtain ⟨j, hj⟩ := h.owned b f hb
      refine ⟨j, ?_⟩
      rw [mofUpd_ne _ _ _]
      · exact hj
      · rintro rfl
        rw [hi] at hj
        exact e (Option.some.inj (Option.some.inj hj))

/-- A variable without an object gets a new one. -/
theorem Owns.put {V : Nat → Option (Option Nat)} {H : Nat → Option (FnObj σ)} {W} (h : Owns V H W) {i a : Nat} (hi : V i = none ∨ V i = some none) (ha : H a = none) (f : FnObj σ) :
    Owns (mofUpd V i (some (some a))) (mofUpd H a (some f)) (mofUpd W i (some (some f))) := by
  have hnew : ∀ j, V j ≠ some (some a) := by
    intro j hj
    obtain ⟨g, hg⟩ := h.valid j a hj
    rw [ha] at hg
    cases hg
  refine ⟨fun j => ?_, fun j b hj => ?_, fun j k b hj hk => ?_, fun b g hb => ?_⟩
  · by_cases e : i = j
    · subst e
      rw [mofUpd_self, mofUpd_self]
      simp [mofUpd_self]
    · rw [mofUpd_ne _ _ e, mofUpd_ne _ _ e, h.val j]
      cases hj : V j with
      | none => rfl
      | some p =>
        cases p with
        | none => rfl
        | some b =>
          have : a ≠ b := by
            rintro rfl
            exact hnew j hj
          simp only [Option.map_some, Option.bind_some]
          rw [mofUpd_ne _ _ this]
  · by_cases e : a = b
    · exact ⟨f, by rw [e, mofUpd_self]⟩
    · rw [mofUpd_ne _ _ e]
      by_cases e2 : i = j
      · subst e2
        rw [mofUpd_self] at hj
        exact absurd (Option.some.inj (Option.some.inj hj)) e
      · rw [mofUpd_ne _ _ e2] at hj
        exact h.valid j b hj
  · by_cases e1 : i = j
    · by_cases e2 : i = k
      · exact e1.symm.trans e2
      · subst e1
        rw [mofUpd_self] at hj
        rw [mofUpd_ne _ _ e2, ← hj] at hk
        exact absurd hk (hnew k)
    · rw [mofUpd_ne _ _ e1] at hj
      by_cases e2 : i = k
      · subst e2
        rw [mofUpd_self] at hk
        rw [← hk] at hj
        exact absurd hj (hnew j)
      · rw [mofUpd_ne _ _ e2] at hk
        exact h.inj j k b hj hk
  · by_cases e : a = b
    · exact ⟨i, by rw [mofUpd_self, e]⟩
    · rw [mofUpd_ne _ _ e] at hb
      obtain ⟨j, hj⟩ := h.owned b g hb
      refine ⟨j, ?_⟩
      rw [mofUpd_ne _ _ _]
      · exact hj
      · rintro rfl
        rcases hi with hi | hi <;> rw [hi] at hj <;> cases hj

/-- The object of a variable changes its state. -/
theorem Owns.change {V : Nat → Option (Option Nat)} {H : Nat → Option (FnObj σ)} {W} (h : Owns V H W) {i a : Nat} (hi : V i = some (some a)) (g : FnObj σ) :
    Owns V (mofUpd H a (some g)) (mofUpd W i (some (some g))) := by
  refine ⟨fun j => ?_, fun j b hj => ?_, h.inj, fun b f hb => ?_⟩
  · by_cases e : i = j
    · subst e
      rw [mofUpd_self, hi]
      simp [mofUpd_self]
    · rw [mofUpd_ne _ _ e, h.val j]
      cases hj : V j with
      | none => rfl
      | some p =>
        cases p with
        | none => rfl
        | some b =>
          have : a ≠ b := by
            rintro rfl
            exact e (h.inj i j a hi hj)
          simp only [Option.map_some, Option.bind_some]
          rw [mofUpd_ne _ _ this]
  · by_cases e : a = b
    · exact ⟨g, by rw [e, mofUpd_self]⟩
    · rw [mofUpd_ne _ _ e]
      exact h.valid j b hj
  · by_cases e : a = b
    · exact ⟨i, e ▸ hi⟩
    · rw [mofUpd_ne _ _ e] at hb
      exact h.owned b f hb

/-- Two variables exchange their pointers. -/
theorem Owns.exchange {V : Nat → Option (Option Nat)} {H : Nat → Option (FnObj σ)} {W} (h : Owns V H W) (i j : Nat) :
    Owns (mofUpd (mofUpd V i (V j)) j (V i)) H (mofUpd (mofUpd W i (W j)) j (W i)) := by
  have key : ∀ {β : Type} (F : Nat → β) (k : Nat), mofUpd (mofUpd F i (F j)) j (F i) k = F (if j = k then i else if i = k then j else k) := by
    intro β F k
    unfold mofUpd
    split
    · rfl
    · split <;> rfl
  have hinv : ∀ k, (fun k => if j = k then i else if i = k then j else k) ((fun k => if j = k then i else if i = k then j else k) k) = k := by
    intro k
    simp only
    split_ifs <;> omega
  refine ⟨fun k => ?_, fun k a hk => ?_, fun k l a hk hl => ?_, fun a f ha => ?_⟩
  · rw [key, key]
    exact h.val _
  · rw [key] at hk
    exact h.valid _ a hk
  · rw [key] at hk hl
    have e := h.inj _ _ a hk hl
    have e2 := congrArg (fun k => if j = k then i else if i = k then j else k) e
    have h1 := hinv k
    have h2 := hinv l
    simp only at h1 h2 e2
    rw [h1, h2] at e2
    exact e2
  · obtain ⟨k, hk⟩ := h.owned a f ha
    refine ⟨if j = k then i else if i = k then j else k, ?_⟩
    rw [key]
    have h1 := hinv k
    simp only at h1
    rw [h1]
    exact hk

/-- The states of the two machines belong together. -/
structure MofRel (s : MofState σ) (v : FnVars σ) : Prop where
  len : v.length = s.vars.length
  owns : Owns (mofLook s.vars) (mofLook s.heap) (mofLook v)

/-- Both machines agree on an operation. -/
def Agree (x : Option (MofState σ × FnObs σ R E)) (y : Option (FnVars σ × FnObs σ R E)) : Prop :=
  (x = none ∧ y = none) ∨ ∃ s v o, x = some (s, o) ∧ y = some (v, o) ∧ MofRel s v

theorem rel_none {s : MofState σ} {v : FnVars σ} (h : MofRel s v) {i : Nat} (hi : mofLook s.vars i = none) : FnVars.get v i = none := by
  have := h.owns.val i
  rw [hi] at this
  exact this

theorem rel_some {s : MofState σ} {v : FnVars σ} (h : MofRel s v) {i : Nat} {p : Option Nat} (hi : mofLook s.vars i = some p) : FnVars.get v i = some (p.bind (mofLook s.heap)) := by
  have := h.owns.val i
  rw [hi] at this
  exact this

theorem rel_lt {s : MofState σ} {v : FnVars σ} (h : MofRel s v) {i : Nat} {p : Option Nat} (hi : mofLook s.vars i = some p) : i < s.vars.length ∧ i < v.length := by
  have := mofLook_lt hi
  exact ⟨this, by rw [h.len]; exact this⟩

/-- The old object of a variable is deleted. -/
theorem delete_spec {s : MofState σ} {v : FnVars σ} (h : MofRel s v) {i : Nat} {old : Option Nat} (hi : mofLook s.vars i = some old) (vars : List (Option (Option Nat))) :
    ∃ H, MofState.delete { heap := s.heap, vars := vars } old = some ({ heap := H, vars := vars }, (old.bind (mofLook s.heap)).toList) ∧
      ∀ x, x = none ∨ x = some none → Owns (mofUpd (mofLook s.vars) i x) (mofLook H) (mofUpd (mofLook v) i (x.map (fun _ => none))) := by
  cases old with
  | none => exact ⟨s.heap, rfl, fun x hx => h.owns.blank (Or.inr hi) hx⟩
  | some a =>
    obtain ⟨f, hf⟩ := h.owns.valid i a hi
    refine ⟨s.heap.set a none, ?_, fun x hx => ?_⟩
    · have e : s.heap[a]?.join = some f := hf
      simp [MofState.delete, e, hf]
    · rw [mofLook_set_upd (mofLook_lt hf)]
      exact h.owns.clear hi hx

theorem mofUpd_upd {β : Type} (f : Nat → β) (i : Nat) (x y : β) : mofUpd (mofUpd f i x) i y = mofUpd f i y := by
  funext j
  unfold mofUpd
  split <;> rfl

theorem mofUpd_comm {β : Type} (f : Nat → β) {i j : Nat} (h : i ≠ j) (x y : β) : mofUpd (mofUpd f i x) j y = mofUpd (mofUpd f j y) i x := by
  funext k
  unfold mofUpd
  split_ifs with h1 h2
  · exact absurd (h2.trans h1.symm) h
  · rfl
  · rfl
  · rfl

theorem mofUpd_eq_self {β : Type} (f : Nat → β) {i : Nat} {x : β} (h : f i = x) : mofUpd f i x = f := by
  funext k
  unfold mofUpd
  split
  · next e => rw [← e, h]
  · rfl

theorem mof_step_agrees (behave : Nat → σ → A → Option (σ × Except E R)) {s : MofState σ} {v : FnVars σ} (h : MofRel s v) (op : MofOp σ A) :
    Agree (s.step behave op) (FnVars.step behave v op) := by
  have hfreshV : mofLook s.vars s.vars.length = none := mofLook_ge (Nat.le_refl _)
  have hfreshH : mofLook s.heap s.heap.length = none := mofLook_ge (Nat.le_refl _)
  cases op with
  | declEmpty =>
    refine Or.inr ⟨_, _, _, rfl, rfl, by simp [h.len], ?_⟩
    rw [mofLook_append_upd, mofLook_append_upd, h.len]
    exact h.owns.blank (Or.inl hfreshV) (Or.inr rfl)
  | declFrom f fails =>
    cases fails with
    | true =>
      refine Or.inr ⟨_, _, _, rfl, rfl, by simp [h.len], ?_⟩
      show Owns (mofLook (s.vars ++ [none])) (mofLook s.heap) (mofLook (v ++ [none]))
      rw [mofLook_append_upd, mofLook_append_upd, h.len]
      exact h.owns.blank (Or.inl hfreshV) (Or.inl rfl)
    | false =>
      refine Or.inr ⟨_, _, _, rfl, rfl, by simp [h.len, MofState.alloc], ?_⟩
      show Owns (mofLook (s.vars ++ [some (some s.heap.length)])) (mofLook (s.heap ++ [some f])) (mofLook (v ++ [some (some f)]))
      rw [mofLook_append_upd, mofLook_append_upd, mofLook_append_upd, h.len]
      exact h.owns.put (Or.inl hfreshV) hfreshH f
  | declMove j =>
    cases hj : mofLook s.vars j with
    | none =>
      have e : s.ptr j = none := hj
      exact Or.inl ⟨by simp [MofState.step, MofState.release, e], by simp [FnVars.step, rel_none h hj]⟩
    | some p =>
      obtain ⟨hlt, hltv⟩ := rel_lt h hj
      have e : s.ptr j = some p := hj
      refine Or.inr ⟨{ heap := s.heap, vars := s.vars.set j (some none) ++ [some p] }, v.set j (some none) ++ [some (p.bind (mofLook s.heap))], {}, by simp [MofState.step, MofState.release, e],
        by simp [FnVars.step, rel_some h hj], by simp [h.len], ?_⟩
      show Owns (mofLook (s.vars.set j (some none) ++ [some p])) (mofLook s.heap) (mofLook (v.set j (some none) ++ [some (p.bind (mofLook s.heap))]))
      rw [mofLook_append_upd, mofLook_append_upd, mofLook_set_upd hlt, mofLook_set_upd hltv, List.length_set, List.length_set, h.len]
      have h1 := (h.owns.blank (Or.inl hfreshV) (x := some none) (Or.inr rfl)).exchange j s.vars.length
      have hne : s.vars.length ≠ j := by omega
      rw [mofUpd_self, mofUpd_self, mofUpd_ne _ _ hne, mofUpd_ne _ _ hne, hj, show mofLook v j = _ from rel_some h hj, mofUpd_comm _ hne, mofUpd_comm _ hne, mofUpd_upd, mofUpd_upd] at h1
      exact h1
  | assignNull i =>
    cases hi : mofLook s.vars i with
    | none =>
      have e : s.ptr i = none := hi
      exact Or.inl ⟨by simp [MofState.step, MofState.reset, e], by simp [FnVars.step, rel_none h hi]⟩
    | some old =>
      obtain ⟨hlt, hltv⟩ := rel_lt h hi
      have e : s.ptr i = some old := hi
      obtain ⟨H, hd, ho⟩ := delete_spec h hi (s.vars.set i (some none))
      refine Or.inr ⟨{ heap := H, vars := s.vars.set i (some none) }, v.set i (some none), { destroyed := (old.bind (mofLook s.heap)).toList }, by simp [MofState.step, MofState.reset, e, hd],
        by simp [FnVars.step, rel_some h hi], by simp [h.len], ?_⟩
      show Owns (mofLook (s.vars.set i (some none))) (mofLook H) (mofLook (v.set i (some none)))
      rw [mofLook_set_upd hlt, mofLook_set_upd hltv]
      exact ho (some none) (Or.inr rfl)
  | assignFrom i f fails =>
    cases hi : mofLook s.vars i with
    | none =>
      have e : s.ptr i = none := hi
      exact Or.inl ⟨by simp [MofState.step, e], by simp [FnVars.step, rel_none h hi]⟩
    | some old =>
      obtain ⟨hlt, hltv⟩ := rel_lt h hi
      have e : s.ptr i = some old := hi
      cases fails with
      | true => exact Or.inr ⟨s, v, { failed := true, destroyed := [f] }, by simp [MofState.step, e], by simp [FnVars.step, rel_some h hi], h⟩
      | false =>
        -- the new object is owned by nobody for a moment
        have hcell : ∀ a, old = some a → mofLook (s.heap ++ [some f]) a = mofLook s.heap a := by
          rintro a rfl
          obtain ⟨g, hg⟩ := h.owns.valid i a hi
          rw [mofLook_append, if_neg (Nat.ne_of_lt (mofLook_lt hg))]
        have hdel : ∃ H, MofState.delete { heap := s.heap ++ [some f], vars := s.vars.set i (some (some s.heap.length)) } old =
            some ({ heap := H, vars := s.vars.set i (some (some s.heap.length)) }, (old.bind (mofLook s.heap)).toList) ∧
            Owns (mofUpd (mofLook s.vars) i (some (some s.heap.length))) (mofLook H) (mofUpd (mofLook v) i (some (some f))) := by
          cases old with
          | none =>
            refine ⟨s.heap ++ [some f], rfl, ?_⟩
            rw [mofLook_append_upd]
            exact h.owns.put (Or.inr hi) hfreshH f
          | some a =>
            obtain ⟨g, hg⟩ := h.owns.valid i a hi
            have hla := mofLook_lt hg
            have e2 : (s.heap ++ [some f])[a]?.join = some g := (hcell a rfl).trans hg
            refine ⟨(s.heap ++ [some f]).set a none, by simp [MofState.delete, e2, hg], ?_⟩
            rw [mofLook_set_upd (by simp; omega), mofLook_append_upd, mofUpd_comm _ (by omega)]
            have h1 := (h.owns.clear hi (x := some none) (Or.inr rfl)).put (i := i) (a := s.heap.length) (Or.inr (mofUpd_self _ _ _))
              (by rw [mofUpd_ne _ _ (by omega)]; exact hfreshH) f
            rw [mofUpd_upd, mofUpd_upd] at h1
            exact h1
        obtain ⟨H, hd, ho⟩ := hdel
        refine Or.inr ⟨{ heap := H, vars := s.vars.set i (some (some s.heap.length)) }, v.set i (some (some f)), { destroyed := (old.bind (mofLook s.heap)).toList }, ?_, by simp [FnVars.step, rel_some h hi], by simp [h.len], ?_⟩
        · have e3 : MofState.ptr { heap := s.heap ++ [some f], vars := s.vars } i = some old := hi
          simp [MofState.step, e, MofState.alloc, MofState.reset, e3, hd]
        · show Owns (mofLook (s.vars.set i (some (some s.heap.length)))) (mofLook H) (mofLook (v.set i (some (some f))))
          rw [mofLook_set_upd hlt, mofLook_set_upd hltv]
          exact ho
  | assignMove i j =>
    cases hj : mofLook s.vars j with
    | none =>
      have e : s.ptr j = none := hj
      refine Or.inl ⟨by simp [MofState.step, MofState.release, e], ?_⟩
      simp only [FnVars.step, rel_none h hj]
      split <;> simp_all
    | some p =>
      obtain ⟨hltj, hltvj⟩ := rel_lt h hj
      have ej : s.ptr j = some p := hj
      by_cases hij : i = j
      · subst hij
        refine Or.inr ⟨s, v, {}, ?_, by simp [FnVars.step, rel_some h hj], h⟩
        have e2 : MofState.ptr { heap := s.heap, vars := s.vars.set i (some none) } i = some none := by
          rw [MofState.ptr]
          exact (mofLook_set hltj _ _).trans (if_pos rfl)
        have e3 : s.vars.set i (some p) = s.vars := by
          apply List.ext_getElem?
          intro k
          rw [List.getElem?_set]
          split
          · next hk =>
            subst hk
            have : s.vars[i]?.join = some p := hj
            rw [List.getElem?_eq_getElem hltj] at this ⊢
            have h2 : s.vars[i] = some p := this
            rw [h2]
          · rfl
        simp [MofState.step, MofState.release, ej, MofState.reset, e2, MofState.delete, e3]
      · cases hi : mofLook s.vars i with
        | none =>
          have e2 : MofState.ptr { heap := s.heap, vars := s.vars.set j (some none) } i = none := by
            rw [MofState.ptr]
            exact (mofLook_set hltj _ _).trans ((if_neg (Ne.symm hij)).trans hi)
          refine Or.inl ⟨by simp [MofState.step, MofState.release, ej, MofState.reset, e2], ?_⟩
          simp [FnVars.step, rel_none h hi]
        | some old =>
          obtain ⟨hlt, hltv⟩ := rel_lt h hi
          have e2 : MofState.ptr { heap := s.heap, vars := s.vars.set j (some none) } i = some old := by
            rw [MofState.ptr]
            exact (mofLook_set hltj _ _).trans ((if_neg (Ne.symm hij)).trans hi)
          obtain ⟨H, hd, ho⟩ := delete_spec h hi ((s.vars.set j (some none)).set i (some p))
          refine Or.inr ⟨{ heap := H, vars := (s.vars.set j (some none)).set i (some p) }, (v.set i (some (p.bind (mofLook s.heap)))).set j (some none), { destroyed := (old.bind (mofLook s.heap)).toList },
            by simp [MofState.step, MofState.release, ej, MofState.reset, e2, hd], by simp [FnVars.step, rel_some h hi, rel_some h hj, hij], by simp [h.len], ?_⟩
          show Owns (mofLook ((s.vars.set j (some none)).set i (some p))) (mofLook H) (mofLook ((v.set i (some (p.bind (mofLook s.heap)))).set j (some none)))
          rw [mofLook_set_upd (by simpa using hlt), mofLook_set_upd hltj, mofLook_set_upd (by simpa using hltvj), mofLook_set_upd hltv]
          have h1 := (ho (some none) (Or.inr rfl)).exchange i j
          rw [mofUpd_self, mofUpd_ne _ _ hij, hj, mofUpd_ne _ _ hij, show mofLook v j = _ from rel_some h hj, mofUpd_self, mofUpd_upd, mofUpd_upd] at h1
          rw [mofUpd_comm _ (Ne.symm hij)]
          exact h1
  | swap i j =>
    cases hi : mofLook s.vars i with
    | none =>
      have e : s.ptr i = none := hi
      exact Or.inl ⟨by simp [MofState.step, e], by simp [FnVars.step, rel_none h hi]⟩
    | some p =>
      have ei : s.ptr i = some p := hi
      cases hj : mofLook s.vars j with
      | none =>
        have e : s.ptr j = none := hj
        refine Or.inl ⟨by simp [MofState.step, ei, e], ?_⟩
        simp [FnVars.step, rel_none h hj]
      | some q =>
        have ej : s.ptr j = some q := hj
        obtain ⟨hlt, hltv⟩ := rel_lt h hi
        obtain ⟨hltj, hltvj⟩ := rel_lt h hj
        refine Or.inr ⟨{ heap := s.heap, vars := (s.vars.set i (some q)).set j (some p) }, (v.set i (some (q.bind (mofLook s.heap)))).set j (some (p.bind (mofLook s.heap))), {},
          by simp [MofState.step, ei, ej], by simp [FnVars.step, rel_some h hi, rel_some h hj], by simp [h.len], ?_⟩
        show Owns (mofLook ((s.vars.set i (some q)).set j (some p))) (mofLook s.heap) (mofLook ((v.set i (some (q.bind (mofLook s.heap)))).set j (some (p.bind (mofLook s.heap)))))
        rw [mofLook_set_upd (by simpa using hltj), mofLook_set_upd hlt, mofLook_set_upd (by simpa using hltvj), mofLook_set_upd hltv]
        have h1 := h.owns.exchange i j
        rw [hi, hj, show mofLook v j = _ from rel_some h hj, show mofLook v i = _ from rel_some h hi] at h1
        exact h1
  | test i =>
    cases hi : mofLook s.vars i with
    | none =>
      have e : s.ptr i = none := hi
      exact Or.inl ⟨by simp [MofState.step, e], by simp [FnVars.step, rel_none h hi]⟩
    | some p =>
      have ei : s.ptr i = some p := hi
      refine Or.inr ⟨s, v, { flag := some p.isSome }, by simp [MofState.step, ei], ?_, h⟩
      have : (p.bind (mofLook s.heap)).isSome = p.isSome := by
        cases p with
        | none => rfl
        | some a =>
          obtain ⟨f, hf⟩ := h.owns.valid i a hi
          simp [hf]
      simp [FnVars.step, rel_some h hi, this]
  | call i a =>
    cases hi : mofLook s.vars i with
    | none =>
      have e : s.ptr i = none := hi
      exact Or.inl ⟨by simp [MofState.step, e], by simp [FnVars.step, rel_none h hi]⟩
    | some p =>
      have ei : s.ptr i = some p := hi
      cases p with
      | none => exact Or.inl ⟨by simp [MofState.step, ei], by simp [FnVars.step, rel_some h hi]⟩
      | some addr =>
        obtain ⟨f, hf⟩ := h.owns.valid i addr hi
        have ef : s.heap[addr]?.join = some f := hf
        obtain ⟨hlt, hltv⟩ := rel_lt h hi
        cases hb : behave f.ty f.state a with
        | none => exact Or.inl ⟨by simp [MofState.step, ei, ef, hb], by simp [FnVars.step, rel_some h hi, hf, hb]⟩
        | some r =>
          refine Or.inr ⟨{ heap := s.heap.set addr (some ⟨f.ty, r.1⟩), vars := s.vars }, v.set i (some (some ⟨f.ty, r.1⟩)), { result := some r.2 },
            by simp [MofState.step, ei, ef, hb], by simp [FnVars.step, rel_some h hi, hf, hb], by simp [h.len], ?_⟩
          show Owns (mofLook s.vars) (mofLook (s.heap.set addr (some ⟨f.ty, r.1⟩))) (mofLook (v.set i (some (some ⟨f.ty, r.1⟩))))
          rw [mofLook_set_upd (mofLook_lt hf), mofLook_set_upd hltv]
          exact h.owns.change hi _
  | destroy i =>
    cases hi : mofLook s.vars i with
    | none =>
      have e : s.ptr i = none := hi
      exact Or.inl ⟨by simp [MofState.step, e], by simp [FnVars.step, rel_none h hi]⟩
    | some old =>
      obtain ⟨hlt, hltv⟩ := rel_lt h hi
      have e : s.ptr i = some old := hi
      obtain ⟨H, hd, ho⟩ := delete_spec h hi (s.vars.set i none)
      refine Or.inr ⟨{ heap := H, vars := s.vars.set i none }, v.set i none, { destroyed := (old.bind (mofLook s.heap)).toList }, by simp [MofState.step, e, hd],
        by simp [FnVars.step, rel_some h hi], by simp [h.len], ?_⟩
      show Owns (mofLook (s.vars.set i none)) (mofLook H) (mofLook (v.set i none))
      rw [mofLook_set_upd hlt, mofLook_set_upd hltv]
      exact ho none (Or.inl rfl)

theorem mof_run_agrees (behave : Nat → σ → A → Option (σ × Except E R)) (ops : List (MofOp σ A)) : ∀ {s : MofState σ} {v : FnVars σ}, MofRel s v →
    (s.run behave ops = none ∧ FnVars.run behave v ops = none) ∨ ∃ s' v' os, s.run behave ops = some (s', os) ∧ FnVars.run behave v ops = some (v', os) ∧ MofRel s' v' := by
  induction ops with
  | nil => exact fun h => Or.inr ⟨_, _, [], rfl, rfl, h⟩
  | cons op ops ih =>
    intro s v h
    rcases mof_step_agrees behave h op with ⟨h1, h2⟩ | ⟨s1, v1, o, h1, h2, h3⟩
    · exact Or.inl ⟨by simp [MofState.run, h1], by simp [FnVars.run, h2]⟩
    · rcases ih h3 with ⟨h4, h5⟩ | ⟨s2, v2, os, h4, h5, h6⟩
      · exact Or.inl ⟨by simp [MofState.run, h1, h4], by simp [FnVars.run, h2, h5]⟩
      · exact Or.inr ⟨s2, v2, o :: os, by simp [MofState.run, h1, h4], by simp [FnVars.run, h2, h5], h6⟩

theorem mofRel_initial : MofRel (σ := σ) ⟨[], []⟩ [] := by
  refine ⟨rfl, fun i => ?_, fun i a hi => ?_, fun i j a hi _ => ?_, fun a f ha => ?_⟩
  · rfl
  · cases hi
  · cases hi
  · cases ha

/-! ## Every callable is destroyed once -/

/-- The types of the objects in the free store. -/
def liveTypes (heap : List (Option (FnObj σ))) : List Nat := (heap.filterMap id).map FnObj.ty

theorem liveTypes_append (heap : List (Option (FnObj σ))) (f : FnObj σ) : liveTypes (heap ++ [some f]) = liveTypes heap ++ [f.ty] := by
  simp [liveTypes]

theorem liveTypes_delete {heap : List (Option (FnObj σ))} {a : Nat} {f : FnObj σ} (h : heap[a]?.join = some f) :
    (liveTypes (heap.set a none) ++ [f.ty]).Perm (liveTypes heap) := by
  induction heap generalizing a with
  | nil => simp at h
  | cons x heap ih =>
    cases a with
    | zero =>
      have hx : x = some f := by simpa using h
      subst hx
      simp only [liveTypes, List.set_cons_zero, List.filterMap_cons, id, List.map_cons]
      exact List.perm_append_comm
    | succ a =>
      have h2 := ih (a := a) (by simpa using h)
      cases x with
      | none => simpa [liveTypes] using h2
      | some y =>
        simp only [liveTypes, List.set_cons_succ, List.filterMap_cons, id, List.map_cons, List.cons_append]
        exact h2.cons _

theorem liveTypes_change {heap : List (Option (FnObj σ))} {a : Nat} {f g : FnObj σ} (h : heap[a]?.join = some f) (hg : g.ty = f.ty) :
    liveTypes (heap.set a (some g)) = liveTypes heap := by
  induction heap generalizing a with
  | nil => simp at h
  | cons x heap ih =>
    cases a with
    | zero =>
      have hx : x = some f := by simpa using h
      subst hx
      simp [liveTypes, hg]
    | succ a =>
      have h2 := ih (a := a) (by simpa using h)
      cases x with
      | none => simpa [liveTypes] using h2
      | some y => simpa [liveTypes] using h2

theorem delete_types {s s' : MofState σ} {p : Option Nat} {d : List (FnObj σ)} (h : s.delete p = some (s', d)) : (liveTypes s'.heap ++ d.map FnObj.ty).Perm (liveTypes s.heap) := by
  cases p with
  | none =>
    simp only [MofState.delete, Option.some.injEq, Prod.mk.injEq] at h
    obtain ⟨rfl, rfl⟩ := h
    simp
  | some a =>
    simp only [MofState.delete, Option.map_eq_some_iff, Prod.mk.injEq] at h
    obtain ⟨f, hf, rfl, rfl⟩ := h
    exact liveTypes_delete hf

theorem mof_step_types (behave : Nat → σ → A → Option (σ × Except E R)) {s s' : MofState σ} {op : MofOp σ A} {o : FnObs σ R E} (h : s.step behave op = some (s', o)) :
    (liveTypes s'.heap ++ o.destroyed.map FnObj.ty).Perm (liveTypes s.heap ++ (constructed [op]).map FnObj.ty) := by
  cases op with
  | declEmpty =>
    simp only [MofState.step, Option.some.injEq, Prod.mk.injEq] at h
    obtain ⟨rfl, rfl⟩ := h
    simp [constructed]
  | declFrom f fails =>
    cases fails with
    | true =>
      simp only [MofState.step, if_true, Option.some.injEq, Prod.mk.injEq] at h
      obtain ⟨rfl, rfl⟩ := h
      simp [constructed]
    | false =>
      simp only [MofState.step, MofState.alloc, Bool.false_eq_true, if_false, Option.some.injEq, Prod.mk.injEq] at h
      obtain ⟨rfl, rfl⟩ := h
      simp [constructed, liveTypes_append]
  | declMove j =>
    simp only [MofState.step, MofState.release, Option.bind_eq_bind, Option.bind_eq_some_iff, Option.pure_def, Option.some.injEq, Prod.mk.injEq] at h
    obtain ⟨_, ⟨p, hp, rfl⟩, rfl, rfl⟩ := h
    simp [constructed]
  | assignNull i =>
    simp only [MofState.step, MofState.reset, Option.bind_eq_bind, Option.bind_eq_some_iff, Option.pure_def, Option.some.injEq, Prod.mk.injEq] at h
    obtain ⟨⟨s1, d⟩, ⟨old, ho, hd⟩, rfl, rfl⟩ := h
    have := delete_types hd
    simpa [constructed] using this
  | assignFrom i f fails =>
    cases fails with
    | true =>
      simp only [MofState.step, if_true, Option.bind_eq_bind, Option.bind_eq_some_iff, Option.pure_def, Option.some.injEq, Prod.mk.injEq] at h
      obtain ⟨_, _, rfl, rfl⟩ := h
      simp [constructed]
    | false =>
      simp only [MofState.step, MofState.reset, MofState.alloc, Bool.false_eq_true, if_false, Option.bind_eq_bind, Option.bind_eq_some_iff, Option.pure_def, Option.some.injEq, Prod.mk.injEq] at h
      obtain ⟨_, _, ⟨s1, d⟩, ⟨old, ho, hd⟩, rfl, rfl⟩ := h
      have := delete_types hd
      simp only [liveTypes_append] at this
      simpa [constructed] using this
  | assignMove i j =>
    simp only [MofState.step, MofState.reset, MofState.release, Option.bind_eq_bind, Option.bind_eq_some_iff, Option.pure_def, Option.some.injEq, Prod.mk.injEq] at h
    obtain ⟨_, ⟨p, hp, rfl⟩, ⟨s2, d⟩, ⟨old, ho, hd⟩, rfl, rfl⟩ := h
    have := delete_types hd
    simpa [constructed] using this
  | swap i j =>
    simp only [MofState.step, Option.bind_eq_bind, Option.bind_eq_some_iff, Option.pure_def, Option.some.injEq, Prod.mk.injEq] at h
    obtain ⟨_, _, _, _, rfl, rfl⟩ := h
    simp [constructed]
  | test i =>
    simp only [MofState.step, Option.bind_eq_bind, Option.bind_eq_some_iff, Option.pure_def, Option.some.injEq, Prod.mk.injEq] at h
    obtain ⟨_, _, rfl, rfl⟩ := h
    simp [constructed]
  | call i a =>
    simp only [MofState.step, Option.bind_eq_bind, Option.bind_eq_some_iff, Option.pure_def, Option.some.injEq, Prod.mk.injEq] at h
    obtain ⟨_, _, addr, _, f, hf, r, _, rfl, rfl⟩ := h
    simp [constructed, liveTypes_change hf (g := ⟨f.ty, r.1⟩) rfl]
  | destroy i =>
    simp only [MofState.step, Option.bind_eq_bind, Option.bind_eq_some_iff, Option.pure_def, Option.some.injEq, Prod.mk.injEq] at h
    obtain ⟨p, hp, ⟨s1, d⟩, hd, rfl, rfl⟩ := h
    have := delete_types hd
    simpa [constructed] using this

theorem constructed_cons (op : MofOp σ A) (ops : List (MofOp σ A)) : constructed (op :: ops) = constructed [op] ++ constructed ops := by
  cases op <;> rfl

theorem mof_run_types (behave : Nat → σ → A → Option (σ × Except E R)) (ops : List (MofOp σ A)) : ∀ {s s' : MofState σ} {os : List (FnObs σ R E)}, s.run behave ops = some (s', os) →
    (liveTypes s'.heap ++ (os.flatMap FnObs.destroyed).map FnObj.ty).Perm (liveTypes s.heap ++ (constructed ops).map FnObj.ty) := by
  induction ops with
  | nil =>
    intro s s' os h
    simp only [MofState.run, Option.some.injEq, Prod.mk.injEq] at h
    obtain ⟨rfl, rfl⟩ := h
    simp [constructed]
  | cons op ops ih =>
    intro s s' os h
    simp only [MofState.run, Option.bind_eq_bind, Option.bind_eq_some_iff, Option.pure_def, Option.some.injEq, Prod.mk.injEq] at h
    obtain ⟨⟨s1, o⟩, h1, ⟨s2, os2⟩, h2, rfl, rfl⟩ := h
    have a1 := mof_step_types behave h1
    have a2 := ih h2
    rw [constructed_cons, List.flatMap_cons, List.map_append, List.map_append]
    generalize liveTypes s2.heap = l2 at *
    generalize liveTypes s1.heap = l1 at *
    generalize liveTypes s.heap = l0 at *
    generalize (constructed [op]).map FnObj.ty = c1 at *
    generalize (constructed ops).map FnObj.ty = c2 at *
    generalize o.destroyed.map FnObj.ty = d1 at *
    generalize (os2.flatMap FnObs.destroyed).map FnObj.ty = d2 at *
    have e1 : (l2 ++ (d1 ++ d2)).Perm ((l2 ++ d2) ++ d1) := by
      rw [List.append_assoc]
      exact List.Perm.append_left _ List.perm_append_comm
    have e2 : ((l1 ++ c2) ++ d1).Perm ((l1 ++ d1) ++ c2) := by
      rw [List.append_assoc, List.append_assoc]
      exact List.Perm.append_left _ List.perm_append_comm
    refine e1.trans ((a2.append_right d1).trans (e2.trans ((a1.append_right c2).trans ?_)))
    rw [List.append_assoc]

/-! ## References -/

/-- The states of the two machines belong together: a reference knows the type of the object it refers to. -/
structure RefRel (s : RefState σ) (v : RefVars σ) : Prop where
  objs : v.objs = s.objs
  refs : v.refs = s.refs.map Prod.fst
  typed : ∀ x ∈ s.refs, ∀ o, x.1 = some o → o < s.objs.length ∧ ∃ ty, x.2 = some ty ∧ ∀ f, mofLook s.objs o = some f → f.ty = ty

theorem invoke_agrees (behave : Nat → σ → A → Option (σ × Except E R)) {s : RefState σ} {v : RefVars σ} (h : RefRel s v) {ty o : Nat} (a : A)
    (hty : ∀ f, mofLook s.objs o = some f → f.ty = ty) :
    (s.invoke behave ty o a = none ∧ RefVars.step.callObject behave v o a = none) ∨
    ∃ s' v' ob, s.invoke behave ty o a = some (s', ob) ∧ RefVars.step.callObject behave v o a = some (v', ob) ∧ RefRel s' v' := by
  cases hf : mofLook s.objs o with
  | none =>
    have e : s.objs[o]?.join = none := hf
    exact Or.inl ⟨by simp [RefState.invoke, e], by simp [RefVars.step.callObject, h.objs, e]⟩
  | some f =>
    have e : s.objs[o]?.join = some f := hf
    have ht := hty f hf
    cases hb : behave f.ty f.state a with
    | none => exact Or.inl ⟨by simp [RefState.invoke, e, ← ht, hb], by simp [RefVars.step.callObject, h.objs, e, hb]⟩
    | some r =>
      refine Or.inr ⟨{ objs := s.objs.set o (some ⟨ty, r.1⟩), refs := s.refs }, ⟨v.objs.set o (some ⟨f.ty, r.1⟩), v.refs⟩, { result := some r.2 },
        by simp [RefState.invoke, e, ← ht, hb], by simp [RefVars.step.callObject, h.objs, e, hb], by simp [h.objs, ht], h.refs, ?_⟩
      intro x hx o' ho'
      obtain ⟨h1, ty', h2, h3⟩ := h.typed x hx o' ho'
      refine ⟨by simpa using h1, ty', h2, fun g hg => ?_⟩
      have hg2 : mofLook (s.objs.set o (some ⟨ty, r.1⟩)) o' = some g := hg
      rw [mofLook_set (mofLook_lt hf)] at hg2
      split at hg2
      · next e2 =>
        subst e2
        rw [← Option.some.inj hg2]
        exact ht ▸ h3 f hf
      · exact h3 g hg2

theorem ref_step_agrees (behave : Nat → σ → A → Option (σ × Except E R)) {s : RefState σ} {v : RefVars σ} (h : RefRel s v) (op : RefOp σ A) :
    (s.step behave op = none ∧ RefVars.step behave v op = none) ∨
    ∃ s' v' ob, s.step behave op = some (s', ob) ∧ RefVars.step behave v op = some (v', ob) ∧ RefRel s' v' := by
  have hrefs : ∀ r : Nat, v.refs[r]? = (s.refs[r]?).map Prod.fst := by
    intro r
    rw [h.refs, List.getElem?_map]
  have hrl : v.refs.length = s.refs.length := by rw [h.refs, List.length_map]
  cases op with
  | declObj f =>
    refine Or.inr ⟨_, _, _, rfl, rfl, by simp [h.objs], h.refs, ?_⟩
    intro x hx o ho
    obtain ⟨h1, ty, h2, h3⟩ := h.typed x hx o ho
    refine ⟨by simp; omega, ty, h2, fun g hg => h3 g ?_⟩
    have hg : mofLook (s.objs ++ [some f]) o = some g := hg
    rwa [mofLook_append, if_neg (by omega)] at hg
  | endObj o =>
    cases hf : mofLook s.objs o with
    | none =>
      have e : s.objs[o]?.join = none := hf
      exact Or.inl ⟨by simp [RefState.step, e], by simp [RefVars.step, h.objs, e]⟩
    | some f =>
      have e : s.objs[o]?.join = some f := hf
      refine Or.inr ⟨{ objs := s.objs.set o none, refs := s.refs }, ⟨v.objs.set o none, v.refs⟩, { destroyed := [f] }, by simp [RefState.step, e], by simp [RefVars.step, h.objs, e],
        by simp [h.objs], h.refs, ?_⟩
      intro x hx o' ho'
      obtain ⟨h1, ty, h2, h3⟩ := h.typed x hx o' ho'
      refine ⟨by simpa using h1, ty, h2, fun g hg => h3 g ?_⟩
      have hg : mofLook (s.objs.set o none) o' = some g := hg
      rw [mofLook_set (mofLook_lt hf)] at hg
      split at hg
      · cases hg
      · exact hg
  | callObj o a =>
    cases hf : mofLook s.objs o with
    | none =>
      have e : s.objs[o]?.join = none := hf
      exact Or.inl ⟨by simp [RefState.step, e], by simp [RefVars.step, RefVars.step.callObject, h.objs, e]⟩
    | some f =>
      have e : s.objs[o]?.join = some f := hf
      have := invoke_agrees behave h (ty := f.ty) (o := o) a (fun g hg => by rw [hf] at hg; rw [Option.some.inj hg])
      simpa [RefState.step, e, RefVars.step] using this
  | declEmpty =>
    refine Or.inr ⟨_, _, _, rfl, rfl, h.objs, by simp [h.refs], ?_⟩
    intro x hx o ho
    rcases List.mem_append.mp hx with hx | hx
    · exact h.typed x hx o ho
    · rw [List.mem_singleton.mp hx] at ho
      cases ho
  | declRef o =>
    cases hf : mofLook s.objs o with
    | none =>
      have e : s.objs[o]?.join = none := hf
      exact Or.inl ⟨by simp [RefState.step, e], by simp [RefVars.step, h.objs, e]⟩
    | some f =>
      have e : s.objs[o]?.join = some f := hf
      refine Or.inr ⟨{ objs := s.objs, refs := s.refs ++ [(some o, some f.ty)] }, ⟨v.objs, v.refs ++ [some o]⟩, {}, by simp [RefState.step, e], by simp [RefVars.step, h.objs, e],
        h.objs, by simp [h.refs], ?_⟩
      intro x hx o' ho'
      rcases List.mem_append.mp hx with hx | hx
      · exact h.typed x hx o' ho'
      · rw [List.mem_singleton.mp hx] at ho' ⊢
        have : o = o' := Option.some.inj ho'
        subst this
        exact ⟨mofLook_lt hf, f.ty, rfl, fun g hg => by
          have hg : mofLook s.objs o = some g := hg
          rw [hf] at hg
          rw [Option.some.inj hg]⟩
  | assignRef r o =>
    cases hf : mofLook s.objs o with
    | none =>
      have e : s.objs[o]?.join = none := hf
      exact Or.inl ⟨by simp [RefState.step, e], by simp [RefVars.step, h.objs, e]⟩
    | some f =>
      have e : s.objs[o]?.join = some f := hf
      by_cases hr : r < s.refs.length
      · have er : s.refs[r]? = some s.refs[r] := List.getElem?_eq_getElem hr
        refine Or.inr ⟨{ objs := s.objs, refs := s.refs.set r (some o, some f.ty) }, ⟨v.objs, v.refs.set r (some o)⟩, {}, by simp [RefState.step, e, er],
          by simp [RefVars.step, h.objs, e, hrl, hr], h.objs, by simp [h.refs, List.map_set], ?_⟩
        intro x hx o' ho'
        rcases List.mem_or_eq_of_mem_set hx with hx | rfl
        · exact h.typed x hx o' ho'
        · have : o = o' := Option.some.inj ho'
          subst this
          exact ⟨mofLook_lt hf, f.ty, rfl, fun g hg => by
            have hg : mofLook s.objs o = some g := hg
            rw [hf] at hg
            rw [Option.some.inj hg]⟩
      · have er : s.refs[r]? = none := List.getElem?_eq_none (by omega)
        exact Or.inl ⟨by simp [RefState.step, e, er], by simp [RefVars.step, hrl, hr]⟩
  | copyRef r q =>
    cases hq : s.refs[q]? with
    | none => exact Or.inl ⟨by simp [RefState.step, hq], by simp [RefVars.step, hrefs, hq]⟩
    | some x =>
      by_cases hr : r < s.refs.length
      · have er : s.refs[r]? = some s.refs[r] := List.getElem?_eq_getElem hr
        refine Or.inr ⟨{ objs := s.objs, refs := s.refs.set r x }, ⟨v.objs, v.refs.set r x.1⟩, {}, by simp [RefState.step, hq, er],
          by simp [RefVars.step, hrefs, hq, hrl, hr], h.objs, by simp [h.refs, List.map_set], ?_⟩
        intro y hy o ho
        rcases List.mem_or_eq_of_mem_set hy with hy | rfl
        · exact h.typed y hy o ho
        · exact h.typed y (List.mem_of_getElem? hq) o ho
      · have er : s.refs[r]? = none := List.getElem?_eq_none (by omega)
        exact Or.inl ⟨by simp [RefState.step, hq, er], by simp [RefVars.step, hrefs, hq, hrl, hr]⟩
  | test r =>
    cases hr : s.refs[r]? with
    | none => exact Or.inl ⟨by simp [RefState.step, hr], by simp [RefVars.step, hrefs, hr]⟩
    | some x => exact Or.inr ⟨s, v, { flag := some x.1.isSome }, by simp [RefState.step, hr], by simp [RefVars.step, hrefs, hr], h⟩
  | call r a =>
    cases hr : s.refs[r]? with
    | none => exact Or.inl ⟨by simp [RefState.step, hr], by simp [RefVars.step, hrefs, hr]⟩
    | some x =>
      cases hx : x.1 with
      | none => exact Or.inl ⟨by simp [RefState.step, hr, hx], by simp [RefVars.step, hrefs, hr, hx]⟩
      | some o =>
        obtain ⟨h1, ty, h2, h3⟩ := h.typed x (List.mem_of_getElem? hr) o hx
        have := invoke_agrees behave h (ty := ty) (o := o) a h3
        simpa [RefState.step, hr, hx, h2, RefVars.step, hrefs] using this

theorem ref_run_agrees (behave : Nat → σ → A → Option (σ × Except E R)) (ops : List (RefOp σ A)) : ∀ {s : RefState σ} {v : RefVars σ}, RefRel s v →
    (s.run behave ops = none ∧ RefVars.run behave v ops = none) ∨ ∃ s' v' os, s.run behave ops = some (s', os) ∧ RefVars.run behave v ops = some (v', os) ∧ RefRel s' v' := by
  induction ops with
  | nil => exact fun h => Or.inr ⟨_, _, [], rfl, rfl, h⟩
  | cons op ops ih =>
    intro s v h
    rcases ref_step_agrees behave h op with ⟨h1, h2⟩ | ⟨s1, v1, o, h1, h2, h3⟩
    · exact Or.inl ⟨by simp [RefState.run, h1], by simp [RefVars.run, h2]⟩
    · rcases ih h3 with ⟨h4, h5⟩ | ⟨s2, v2, os, h4, h5, h6⟩
      · exact Or.inl ⟨by simp [RefState.run, h1, h4], by simp [RefVars.run, h2, h5]⟩
      · exact Or.inr ⟨s2, v2, o :: os, by simp [RefState.run, h1, h4], by simp [RefVars.run, h2, h5], h6⟩

end Gapp.Model

namespace Gapp.Props
open Gapp.Model Gapp.Spec
variable {σ A R E : Type}

/-- C88: Every program with `move_only_function` variables has the observations of the specification: the same results of calls and exceptions, the same answers about emptiness, and the same
callables destroyed by the same operations. It fails (by an assertion or undefined behaviour) exactly if the specification does not allow it. -/
theorem C88_move_only_function (behave : Nat → σ → A → Option (σ × Except E R)) (ops : List (MofOp σ A)) :
    (MofState.run behave ⟨[], []⟩ ops).map Prod.snd = (FnVars.run behave [] ops).map Prod.snd := by
  rcases mof_run_agrees behave ops mofRel_initial with ⟨h1, h2⟩ | ⟨s, v, os, h1, h2, -⟩
  · rw [h1, h2]; rfl
  · rw [h1, h2]; rfl

/-- C88: After every program, each object in the free store is owned by exactly one live wrapper; in particular nothing is left when all of them are destroyed. -/
theorem C88_ownership (behave : Nat → σ → A → Option (σ × Except E R)) (ops : List (MofOp σ A)) (s : MofState σ) (os : List (FnObs σ R E))
    (h : MofState.run behave ⟨[], []⟩ ops = some (s, os)) :
    (∀ (a : Nat) (f : FnObj σ), s.heap[a]? = some (some f) → ∃! i : Nat, s.vars[i]? = some (some (some a))) ∧
    (∀ i a : Nat, s.vars[i]? = some (some (some a)) → ∃ f, s.heap[a]? = some (some f)) := by
  rcases mof_run_agrees behave ops mofRel_initial with ⟨h1, -⟩ | ⟨s', v, os', h1, -, hrel⟩
  · rw [h] at h1; cases h1
  · rw [h] at h1
    obtain ⟨rfl, rfl⟩ := Prod.mk.inj (Option.some.inj h1)
    have join : ∀ {α : Type} (l : List (Option α)) (i : Nat) (x : α), mofLook l i = some x ↔ l[i]? = some (some x) := by
      intro α l i x
      unfold mofLook
      cases l[i]? with
      | none => simp
      | some y => simp
    refine ⟨fun a f ha => ?_, fun i a hi => ?_⟩
    · obtain ⟨i, hi⟩ := hrel.owns.owned a f ((join _ _ _).2 ha)
      exact ⟨i, (join _ _ _).1 hi, fun j hj => hrel.owns.inj j i a ((join _ _ _).2 hj) hi⟩
    · obtain ⟨f, hf⟩ := hrel.owns.valid i a ((join _ _ _).2 hi)
      exact ⟨f, (join _ _ _).1 hf⟩

/-- C88: Each callable given to a wrapper is in the free store or was destroyed, once. (Callables are told apart by their types.) -/
theorem C88_exactly_once (behave : Nat → σ → A → Option (σ × Except E R)) (ops : List (MofOp σ A)) (s : MofState σ) (os : List (FnObs σ R E))
    (h : MofState.run behave ⟨[], []⟩ ops = some (s, os)) :
    ((s.heap.filterMap id).map FnObj.ty ++ (os.flatMap FnObs.destroyed).map FnObj.ty).Perm ((constructed ops).map FnObj.ty) := by
  have := mof_run_types behave ops h
  simpa [liveTypes] using this

/-- C88: Calling a `function_ref` is calling the object it refers to, in every program. -/
theorem C88_function_ref (behave : Nat → σ → A → Option (σ × Except E R)) (ops : List (RefOp σ A)) :
    (RefState.run behave ⟨[], []⟩ ops).map Prod.snd = (RefVars.run behave ⟨[], []⟩ ops).map Prod.snd := by
  rcases ref_run_agrees behave ops (s := ⟨[], []⟩) (v := ⟨[], []⟩) ⟨rfl, rfl, by simp⟩ with ⟨h1, h2⟩ | ⟨s, v, os, h1, h2, -⟩
  · rw [h1, h2]; rfl
  · rw [h1, h2]; rfl

/-- C88: A wrapper that is not empty need not be callable: a null pointer to a function is stored as a callable, so that the wrapper is not empty and the assertion of the call holds. -/
theorem C88_null_pointer_violated (behave : Nat → σ → A → Option (σ × Except E R)) (null : FnObj σ) (a : A) (hnull : behave null.ty null.state a = none) :
    (∃ s, MofState.run behave ⟨[], []⟩ [.declFrom null false, .test 0] = some (s, [{}, { flag := some true }])) ∧
    MofState.run behave ⟨[], []⟩ [.declFrom null false, .test 0, .call 0 a] = none := by
  constructor
  · exact ⟨_, rfl⟩
  · simp [MofState.run, MofState.step, MofState.alloc, MofState.ptr, hnull]

/-! ## A concrete case -/

/-- Callables that add their state to the argument and count the calls; the type 9 throws. -/
def countingCalls (ty state arg : Nat) : Option (Nat × Except String Nat) :=
  if ty = 9 then some (state, .error "bad") else some (state + 1, .ok (state + arg))

/-- Two tasks, a move, a call that throws, an assignment that fails, and a self-move. -/
def mofProgram : List (MofOp Nat Nat) :=
  [.declFrom ⟨1, 10⟩ false, .declFrom ⟨9, 0⟩ false, .declEmpty, .call 0 5, .assignMove 2 0, .test 0, .call 2 5, .call 1 0, .assignFrom 1 ⟨3, 0⟩ true, .assignMove 2 2,
    .assignFrom 1 ⟨4, 7⟩ false, .swap 1 2, .call 1 1, .destroy 0, .destroy 1, .destroy 2]

example : (MofState.run countingCalls ⟨[], []⟩ mofProgram).map Prod.fst = some ⟨[none, none, none], [none, none, none]⟩ := by decide

example : (MofState.run countingCalls ⟨[], []⟩ mofProgram).map (fun p => p.2.map FnObs.destroyed) =
    some [[], [], [], [], [], [], [], [], [⟨3, 0⟩], [], [⟨9, 0⟩], [], [], [], [⟨1, 13⟩], [⟨4, 7⟩]] := by decide

example : (MofState.run countingCalls ⟨[], []⟩ mofProgram).map (fun p => p.2.map (fun o => o.result.bind Except.toOption)) =
    some [none, none, none, some 15, none, none, some 16, none, none, none, none, none, some 13, none, none, none] := by decide

example : ((RefState.run countingCalls ⟨[], []⟩ [.declObj ⟨1, 10⟩, .declRef 0, .call 0 5, .callObj 0 1, .declEmpty, .copyRef 1 0, .call 1 0, .test 1]).map
    (fun p => (p.1.objs, p.2.map FnObs.flag))) = some ([some ⟨1, 13⟩], [none, none, none, none, none, none, none, some true]) := by decide

/-- An empty wrapper and a moved-from wrapper cannot be called. -/
example : (MofState.run countingCalls ⟨[], []⟩ [.declFrom ⟨1, 10⟩ false, .declMove 0, .call 0 5]).isNone = true := by decide

end Gapp.Props
