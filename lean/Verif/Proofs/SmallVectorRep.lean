import Verif.Proofs.SmallVectorRegion
/-!
# Vectors and the sequences they hold
-/

namespace Gapp.Model

variable {α : Type}

/-- `v` holds the elements `xs`, and there are no other objects in its memory. -/
structure SVRep (E : SVEnv α) (v : SVec α) (xs : List α) : Prop where
  size : v.size = xs.length
  fit : xs.length ≤ svCap E v
  capMax : svCap E v ≤ E.maxSize
  live : ∀ k < xs.length, (svRegion E v).cells k = xs[k]?
  raw : E.trivial = false → ∀ k, xs.length ≤ k → (svRegion E v).cells k = none
  buf : E.trivial = false → v.heap.isSome → ∀ k, v.buf k = none

/-- The outcome of an operation: the vector holds `ys`, or `std::length_error` was thrown because more than `lim > max_size()` elements of storage were needed. -/
def SVOut (E : SVEnv α) (res : Except SVErr (SVec α)) (ys : List α) (lim : Nat) : Prop :=
  (∃ v, res = .ok v ∧ SVRep E v ys) ∨ res = .error .length ∧ E.maxSize < lim

theorem ok_bind {ε β γ : Type} (a : β) (f : β → Except ε γ) : ((Except.ok a : Except ε β) >>= f) = f a := rfl

theorem err_bind {ε β γ : Type} (e : ε) (f : β → Except ε γ) : ((Except.error e : Except ε β) >>= f) = .error e := rfl

theorem SVOut.ok {E : SVEnv α} {v : SVec α} {ys : List α} {lim : Nat} (h : SVRep E v ys) : SVOut E (.ok v) ys lim :=
  Or.inl ⟨v, rfl, h⟩

theorem SVOut.mono {E : SVEnv α} {res : Except SVErr (SVec α)} {ys : List α} {l l' : Nat} (h : SVOut E res ys l) (hl : l ≤ l') :
    SVOut E res ys l' := h.imp id (fun h => ⟨h.1, by omega⟩)

theorem SVOut.bind {E : SVEnv α} {res : Except SVErr (SVec α)} {f : SVec α → Except SVErr (SVec α)} {ys zs : List α} {l l' : Nat}
    (h : SVOut E res ys l) (hf : ∀ v, SVRep E v ys → SVOut E (f v) zs l') (hl : l ≤ l') : SVOut E (res >>= f) zs l' := by
  rcases h with ⟨v, e, hv⟩ | ⟨e, h⟩
  · rw [e]; exact hf v hv
  · rw [e]; exact Or.inr ⟨rfl, by omega⟩

theorem svNextCap_out (E : SVEnv α) (cap g : Nat) (hc : cap ≤ E.maxSize) :
    (∃ c, svNextCap E cap g = .ok c ∧ cap + g ≤ c ∧ c ≤ E.maxSize) ∨
      svNextCap E cap g = .error .length ∧ E.maxSize < cap + g := by
  unfold svNextCap
  split
  · exact Or.inr ⟨rfl, by omega⟩
  · split
    · exact Or.inl ⟨_, rfl, by omega, by omega⟩
    · exact Or.inl ⟨_, rfl, by omega, by omega⟩

theorem regAlloc_ok (E : SVEnv α) (hE : SVEnvOk E) (n : Nat) (h : n ≤ E.maxSize) :
    regAlloc E n = .ok ⟨n + E.slack n, fun _ => none⟩ := if_pos h

theorem rep_region_cap {E : SVEnv α} {v : SVec α} {xs : List α} (h : SVRep E v xs) : xs.length ≤ (svRegion E v).cap := h.fit

theorem rep_isSome {E : SVEnv α} {v : SVec α} {xs : List α} (h : SVRep E v xs) (k : Nat) (hk : k < xs.length) :
    ((svRegion E v).cells k).isSome := by
  rw [h.live k hk, List.getElem?_eq_getElem hk]; rfl

theorem rep_empty (E : SVEnv α) (hE : SVEnvOk E) : SVRep E svEmpty [] where
  size := rfl
  fit := Nat.zero_le _
  capMax := hE.inline_le
  live := by intro k hk; simp at hk
  raw := by intros; rfl
  buf := by intros; rfl

/-- The storage was modified in place. -/
theorem rep_put {E : SVEnv α} {v : SVec α} {xs : List α} (h : SVRep E v xs) (r : Region α) (ys : List α) (n : Nat)
    (hn : n = ys.length) (hcap : r.cap = (svRegion E v).cap) (hfit : ys.length ≤ (svRegion E v).cap)
    (hlive : ∀ k < ys.length, r.cells k = ys[k]?)
    (hraw : E.trivial = false → ∀ k, ys.length ≤ k → r.cells k = none) : SVRep E (svPut v r n) ys := by
  subst hn
  have hmax := h.capMax
  have hbuf := h.buf
  unfold svCap at hmax
  cases hh : v.heap with
  | none =>
    have e1 : svRegion E v = ⟨E.inlineCap, v.buf⟩ := by unfold svRegion; rw [hh]
    have e2 : svPut v r ys.length = ⟨r.cells, none, ys.length⟩ := by unfold svPut; rw [hh]
    rw [e1] at hcap hfit hmax
    rw [e2]
    exact ⟨rfl, hfit, hmax, hlive, hraw, fun _ h => by simp at h⟩
  | some r0 =>
    have e1 : svRegion E v = r0 := by unfold svRegion; rw [hh]
    have e2 : svPut v r ys.length = ⟨v.buf, some r, ys.length⟩ := by unfold svPut; rw [hh]
    rw [e1] at hcap hfit hmax
    rw [e2]
    refine ⟨rfl, ?_, ?_, hlive, hraw, fun ht _ => hbuf ht (by rw [hh]; rfl)⟩
    · show ys.length ≤ r.cap; omega
    · show r.cap ≤ E.maxSize; omega

/-- The storage was replaced by allocated storage. -/
theorem rep_adopt {E : SVEnv α} {v : SVec α} {xs : List α} (h : SVRep E v xs) (old new : Region α) (ys : List α) (n : Nat)
    (hn : n = ys.length) (hold : E.trivial = false → ∀ k, old.cells k = none) (hfit : ys.length ≤ new.cap)
    (hmax : new.cap ≤ E.maxSize) (hlive : ∀ k < ys.length, new.cells k = ys[k]?)
    (hraw : E.trivial = false → ∀ k, ys.length ≤ k → new.cells k = none) :
    ∃ v', svAdopt E v old new n = .ok v' ∧ SVRep E v' ys := by
  subst hn
  have hbuf := h.buf
  unfold svAdopt
  cases hh : v.heap with
  | none =>
    refine ⟨_, rfl, rfl, hfit, hmax, hlive, hraw, ?_⟩
    intro ht _ k
    exact hold ht k
  | some r0 =>
    refine ⟨⟨v.buf, some new, ys.length⟩, ?_, rfl, hfit, hmax, hlive, hraw, ?_⟩
    · dsimp only
      rw [regFree_ok E old (fun ht k _ => hold ht k)]
      rfl
    · intro ht _
      exact hbuf ht (by rw [hh]; rfl)

/-- The old storage after its elements were moved away and destroyed. -/
theorem cdel_all (E : SVEnv α) (f g : Nat → Option α) (n : Nat) (hg : ∀ k, n ≤ k → g k = f k)
    (hf : E.trivial = false → ∀ k, n ≤ k → f k = none) : E.trivial = false → ∀ k, cdel E g 0 n k = none := by
  intro ht k
  unfold cdel
  split
  · rfl
  · rw [hg k (by grind), hf ht k (by grind)]

theorem cput_at (f : Nat → Option α) (i : Nat) (xs : List α) (k : Nat) (h : i ≤ k ∧ k < i + xs.length) :
    cput f i xs k = xs[k - i]? := if_pos h

theorem cput_out (f : Nat → Option α) (i : Nat) (xs : List α) (k : Nat) (h : ¬ (i ≤ k ∧ k < i + xs.length)) :
    cput f i xs k = f k := if_neg h

theorem cput_isSome (f : Nat → Option α) (i : Nat) (xs : List α) (k : Nat) (h : ¬ (i ≤ k ∧ k < i + xs.length) → (f k).isSome) :
    (cput f i xs k).isSome := by
  unfold cput
  split
  · rename_i hk
    rw [List.getElem?_eq_getElem (by omega)]; rfl
  · rename_i hk; exact h hk

/-! ## Capacity -/

theorem svReallocate_ok {E : SVEnv α} (hE : SVEnvOk E) {v : SVec α} {xs : List α} (h : SVRep E v xs) (n : Nat)
    (hn : xs.length ≤ n) (hm : n ≤ E.maxSize) : ∃ w, svReallocate E v n = .ok w ∧ SVRep E w xs ∧ n ≤ svCap E w := by
  have hs := hE.slack_le n hm
  have e : svReallocate E v n = svAdopt E v ⟨(svRegion E v).cap, cdel E (cput (svRegion E v).cells 0 (xs.map E.moved)) 0 xs.length⟩
      ⟨n + E.slack n, cput (fun _ => none) 0 xs⟩ xs.length := by
    unfold svReallocate
    rw [regAlloc_ok E hE n hm, ok_bind, h.size,
      regRelocate_ok E xs _ _ 0 0 (by have := h.fit; unfold svCap at this; omega) (by dsimp only; omega)
        (by intro k hk; rw [Nat.zero_add]; exact h.live k hk) (by intros; rfl), ok_bind]
    dsimp only
    rw [regDestroyRange_ok E xs.length _ 0 (by have := h.fit; unfold svCap at this; dsimp only; omega)
      (by intro ht k h1 h2; dsimp only; apply cput_isSome; intro hk; exfalso; apply hk; simp; omega), ok_bind]
  rw [e]
  unfold svAdopt
  have hold : E.trivial = false → ∀ k, cdel E (cput (svRegion E v).cells 0 (xs.map E.moved)) 0 xs.length k = none :=
    cdel_all E (svRegion E v).cells _ _ (fun k hk => cput_out _ _ _ _ (by simp; omega)) h.raw
  have hlive : ∀ k < xs.length, cput (fun _ => none) 0 xs k = xs[k]? := by
    intro k hk; rw [cput_at _ _ _ _ (by omega)]; rfl
  have hraw : E.trivial = false → ∀ k, xs.length ≤ k → cput (fun _ => none) 0 xs k = none := by
    intro _ k hk; rw [cput_out _ _ _ _ (by omega)]
  cases hh : v.heap with
  | none =>
    refine ⟨_, rfl, ⟨rfl, ?_, hs, hlive, hraw, ?_⟩, ?_⟩
    · show xs.length ≤ n + E.slack n; omega
    · intro ht _; exact hold ht
    · show n ≤ n + E.slack n; omega
  | some r0 =>
    refine ⟨⟨v.buf, some ⟨n + E.slack n, cput (fun _ => none) 0 xs⟩, xs.length⟩, ?_, ⟨rfl, ?_, hs, hlive, hraw, ?_⟩, ?_⟩
    · dsimp only
      rw [regFree_ok E _ (fun ht k _ => hold ht k)]
      rfl
    · show xs.length ≤ n + E.slack n; omega
    · intro ht _; exact h.buf ht (by rw [hh]; rfl)
    · show n ≤ n + E.slack n; omega

theorem svReserve_out {E : SVEnv α} (hE : SVEnvOk E) {v : SVec α} {xs : List α} (h : SVRep E v xs) (n : Nat) :
    (∃ w, svReserve E v n = .ok w ∧ SVRep E w xs ∧ n ≤ svCap E w ∧ (n ≤ svCap E v → w = v)) ∨
      svReserve E v n = .error .length ∧ E.maxSize < n := by
  unfold svReserve
  split
  · rename_i hn
    rcases svNextCap_out E (svCap E v) (n - svCap E v) h.capMax with ⟨c, e, h1, h2⟩ | ⟨e, h1⟩
    · rw [e, ok_bind]
      obtain ⟨w, e, hw, hc⟩ := svReallocate_ok hE h c (by have := h.fit; omega) h2
      exact Or.inl ⟨w, e, hw, by omega, by omega⟩
    · rw [e]; exact Or.inr ⟨rfl, by omega⟩
  · rename_i hn
    exact Or.inl ⟨v, rfl, h, by omega, fun _ => rfl⟩

theorem svShrink_out {E : SVEnv α} (hE : SVEnvOk E) {v : SVec α} {xs : List α} (h : SVRep E v xs) :
    ∃ w, svShrink E v = .ok w ∧ SVRep E w xs := by
  unfold svShrink
  split
  · rw [h.size]
    obtain ⟨w, e, hw, _⟩ := svReallocate_ok hE h xs.length le_rfl (by have := h.fit; have := h.capMax; omega)
    exact ⟨w, e, hw⟩
  · exact ⟨v, rfl, h⟩

end Gapp.Model
