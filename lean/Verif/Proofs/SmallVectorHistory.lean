import Verif.Proofs.SmallVectorOps
import Verif.Spec.SmallVector
/-!
# Histories of vectors
-/

namespace Gapp.Model

open Gapp.Spec

variable {α : Type}

theorem svContents_rep {E : SVEnv α} {s : Nat → SVec α} {v : Nat} {xs : List α} (h : SVRep E (s v) xs) :
    svContents E s v = xs := by
  unfold svContents
  rw [svElems_ok h]

/-- Every vector holds its elements. -/
def SVGood (E : SVEnv α) (s : Nat → SVec α) : Prop := ∀ v, SVRep E (s v) (svContents E s v)

theorem good_of {E : SVEnv α} {s : Nat → SVec α} (h : ∀ v, ∃ xs, SVRep E (s v) xs) : SVGood E s := by
  intro v
  obtain ⟨xs, hx⟩ := h v
  rw [svContents_rep hx]
  exact hx

theorem good_upd {E : SVEnv α} {s : Nat → SVec α} (h : SVGood E s) (v : Nat) (x : SVec α) (ys : List α) (hx : SVRep E x ys) :
    SVGood E (upd s v x) ∧ Becomes (svContents E s) (svContents E (upd s v x)) v ys := by
  have hv : SVRep E (upd s v x v) ys := by rw [upd_same]; exact hx
  have hk : ∀ k, k ≠ v → SVRep E (upd s v x k) (svContents E s k) := by
    intro k hk; rw [upd_ne _ _ hk]; exact h k
  refine ⟨good_of fun k => ?_, svContents_rep hv, fun k hkv => svContents_rep (hk k hkv)⟩
  by_cases e : k = v
  · subst e; exact ⟨_, hv⟩
  · exact ⟨_, hk k e⟩

/-- The result of an operation. -/
def StepOut (E : SVEnv α) (s : Nat → SVec α) (op : SVOp α) : Prop :=
  (∃ s', svStep E s op = .ok s' ∧ SVGood E s' ∧ VecPost E.default (svContents E s) (svContents E s') op) ∨
    (svStep E s op = .error .length ∧ E.maxSize < svDemand E s op)

theorem stepOut_on {E : SVEnv α} {s : Nat → SVec α} (h : SVGood E s) (op : SVOp α) (v : Nat) (res : Except SVErr (SVec α))
    (ys : List α) (lim : Nat) (hout : SVOut E res ys lim) (hstep : svStep E s op = (do let x ← res; .ok (upd s v x)))
    (hpost : ∀ s', Becomes (svContents E s) s' v ys → VecPost E.default (svContents E s) s' op)
    (hlim : lim ≤ svDemand E s op) : StepOut E s op := by
  rcases hout with ⟨x, e, hx⟩ | ⟨e, hl⟩
  · obtain ⟨hg, hb⟩ := good_upd h v x ys hx
    exact Or.inl ⟨_, by rw [hstep, e]; rfl, hg, hpost _ hb⟩
  · exact Or.inr ⟨by rw [hstep, e]; rfl, by omega⟩

theorem SVOut.of {E : SVEnv α} {res : Except SVErr (SVec α)} {ys : List α} (h : ∃ w, res = .ok w ∧ SVRep E w ys) :
    SVOut E res ys 0 := Or.inl h

theorem good_upd2 {E : SVEnv α} {s : Nat → SVec α} (h : SVGood E s) (v w : Nat) (hne : v ≠ w) (x y : SVec α) (xs ys : List α)
    (hx : SVRep E x xs) (hy : SVRep E y ys) :
    SVGood E (upd (upd s v x) w y) ∧ svContents E (upd (upd s v x) w y) v = xs ∧ svContents E (upd (upd s v x) w y) w = ys ∧
      ∀ k, k ≠ v → k ≠ w → svContents E (upd (upd s v x) w y) k = svContents E s k := by
  obtain ⟨h1, b1, b2⟩ := good_upd h v x xs hx
  obtain ⟨h2, c1, c2⟩ := good_upd h1 w y ys hy
  exact ⟨h2, by rw [c2 v hne]; exact b1, c1, fun k hv hw => by rw [c2 k hw, b2 k hv]⟩

theorem argVal_eq (xs : List α) (arg : SVArg α) : argVal xs arg = argValue xs arg := by cases arg <;> rfl

theorem arg_some {xs : List α} {arg : SVArg α} (h : (argValue xs arg).isSome) :
    ∃ a, argVal xs arg = some a ∧ argValue xs arg = some a := by
  obtain ⟨a, ha⟩ := Option.isSome_iff_exists.mp h
  exact ⟨a, by rw [argVal_eq]; exact ha, ha⟩

theorem becomes_self (s : Nat → List α) (s' : Nat → List α) (v : Nat) (h : Becomes s s' v (s v)) : s' = s := by
  funext k
  by_cases e : k = v
  · subst e; exact h.1
  · exact h.2 k e

theorem svStep_out {E : SVEnv α} (hE : SVEnvOk E) {s : Nat → SVec α} (h : SVGood E s) (op : SVOp α)
    (hpre : VecPre (svContents E s) op) (hsafe : ¬ SVFaulty E s op) : StepOut E s op := by
  cases op with
  | pushBack v arg =>
    obtain ⟨a, ha, ha'⟩ := arg_some hpre
    exact stepOut_on h _ v _ _ _ (svPushBack_out hE (h v) arg a ha) rfl (fun s' hs => ⟨a, ha', hs⟩)
      (by show _ ≤ (s v).size + 1; rw [(h v).size])
  | popBack v =>
    have ht : E.trivial = true := by simpa [SVFaulty] using hsafe
    exact stepOut_on h _ v _ _ _ (SVOut.of (svPopBack_trivial ht (h v) hpre)) rfl (fun s' hs => hs) (Nat.zero_le _)
  | emplace v pos arg =>
    obtain ⟨hp, hpa⟩ := hpre
    obtain ⟨a, ha, ha'⟩ := arg_some hpa
    exact stepOut_on h _ v _ _ _ (svEmplace_out hE (h v) pos hp arg a ha) rfl (fun s' hs => ⟨a, ha', hs⟩)
      (by show _ ≤ (s v).size + 1; rw [(h v).size])
  | insertN v pos n arg =>
    obtain ⟨hp, hpa⟩ := hpre
    obtain ⟨a, ha, ha'⟩ := arg_some hpa
    simp only [SVFaulty, not_or, not_exists, not_and, (h v).size] at hsafe
    cases arg with
    | own i => exact absurd rfl (hsafe.1 i)
    | ext b =>
      have : b = a := Option.some.inj ha
      subst this
      exact stepOut_on h _ v _ _ _ (svInsertN_out hE (h v) pos hp n b (by have := hsafe.2; omega)) rfl
        (fun s' hs => ⟨b, ha', hs⟩) le_rfl
  | insertRange v pos xs =>
    simp only [SVFaulty, not_and, (h v).size] at hsafe
    exact stepOut_on h _ v _ _ _ (svInsertRange_out hE (h v) pos hpre xs (by omega)) rfl (fun s' hs => hs) le_rfl
  | insertInput v pos xs =>
    exact stepOut_on h _ v _ _ _ (svInsertInput_out hE (h v) pos hpre xs) rfl (fun s' hs => hs)
      (by show _ ≤ (s v).size + _; rw [(h v).size])
  | erase v i j =>
    exact stepOut_on h _ v _ _ _ (SVOut.of (svErase_out (h v) i j hpre.1 hpre.2)) rfl (fun s' hs => hs) (Nat.zero_le _)
  | resize v n =>
    exact stepOut_on h _ v _ _ _ (svResize_out hE (h v) n) rfl (fun s' hs => hs) le_rfl
  | resizeV v n arg =>
    obtain ⟨a, ha, ha'⟩ := arg_some hpre
    simp only [SVFaulty, not_and] at hsafe
    refine stepOut_on h _ v _ _ _ (svResizeV_out hE (h v) n arg a ha ?_) rfl (fun s' hs => ⟨a, ha', hs⟩) le_rfl
    cases arg with
    | ext b => exact Or.inl (by rw [Option.some.inj ha])
    | own i => exact Or.inr (by have := hsafe ⟨i, rfl⟩; omega)
  | assignN v n arg =>
    obtain ⟨a, ha, ha'⟩ := arg_some hpre
    exact stepOut_on h _ v _ _ _ (svAssignN_out hE (h v) n arg a ha) rfl (fun s' hs => ⟨a, ha', hs⟩) le_rfl
  | assignRange v xs =>
    exact stepOut_on h _ v _ _ _ (svAssignRange_out hE (h v) xs) rfl (fun s' hs => hs) le_rfl
  | assignInput v xs =>
    exact stepOut_on h _ v _ _ _ (svAssignInput_out hE (h v) xs) rfl (fun s' hs => hs) le_rfl
  | reserve v n =>
    have : SVOut E (svReserve E (s v) n) (svContents E s v) n :=
      (svReserve_out hE (h v) n).imp (fun ⟨w, e, hw, _⟩ => ⟨w, e, hw⟩) id
    exact stepOut_on h _ v _ _ _ this rfl (fun s' hs => becomes_self _ _ _ hs) le_rfl
  | shrinkToFit v =>
    exact stepOut_on h _ v _ _ _ (SVOut.of (svShrink_out hE (h v))) rfl (fun s' hs => becomes_self _ _ _ hs) (Nat.zero_le _)
  | clear v => exact stepOut_on h _ v _ _ _ (SVOut.of (svClear_out (h v))) rfl (fun s' hs => hs) (Nat.zero_le _)
  | copyAssign v w =>
    by_cases e : v = w
    · subst e
      exact Or.inl ⟨s, if_pos rfl, h, rfl, fun _ _ => rfl⟩
    · refine stepOut_on h _ v _ _ _ (svAssignRange_out hE (h v) (svContents E s w)) ?_ (fun s' hs => hs)
        (by show _ ≤ svCap E (s v) + (s w).size; rw [(h w).size])
      simp only [svStep, if_neg e, svOn, svElems_ok (h w), ok_bind]
  | moveAssign v w fwd =>
    by_cases e : v = w
    · subst e
      exact Or.inl ⟨s, if_pos rfl, h, rfl, fun _ _ _ => rfl⟩
    · have es : svStep E s (.moveAssign v w fwd) = svOn2 s v w (svMoveAssign E fwd) := if_neg e
      rcases svMoveAssign_out hE fwd (h v) (h w) with ⟨v', w', zs, e1, h1, h2⟩ | ⟨e1, hl⟩
      · obtain ⟨g, c1, c2, c3⟩ := good_upd2 h v w e v' w' _ _ h1 h2
        exact Or.inl ⟨_, by rw [es]; unfold svOn2; rw [e1]; rfl, g, c1, c3⟩
      · refine Or.inr ⟨by rw [es]; unfold svOn2; rw [e1]; rfl, ?_⟩
        show _ < svCap E (s v) + (s w).size
        rw [(h w).size]; exact hl
  | swap v w =>
    by_cases e : v = w
    · subst e
      exact Or.inl ⟨s, if_pos rfl, h, rfl, rfl, fun _ _ _ => rfl⟩
    · have es : svStep E s (.swap v w) = svOn2 s v w (svSwap E) := if_neg e
      obtain ⟨v', w', e1, h1, h2⟩ := svSwap_out hE (h v) (h w)
      obtain ⟨g, c1, c2, c3⟩ := good_upd2 h v w e v' w' _ _ h1 h2
      exact Or.inl ⟨_, by rw [es]; unfold svOn2; rw [e1]; rfl, g, c1, c2, c3⟩
  | ctorN v n =>
    refine stepOut_on h _ v _ _ _ (svCtorRange_out hE (List.replicate n E.default)) ?_ (fun s' hs => hs)
      (by rw [List.length_replicate]; exact le_rfl)
    simp only [svStep, svOn, svDestroy_out hE (h v), ok_bind]
  | ctorRange v xs =>
    refine stepOut_on h _ v _ _ _ (svCtorRange_out hE xs) ?_ (fun s' hs => hs) le_rfl
    simp only [svStep, svOn, svDestroy_out hE (h v), ok_bind]
  | ctorInput v xs =>
    refine stepOut_on h _ v _ _ _ (svCtorInput_out hE xs) ?_ (fun s' hs => hs) le_rfl
    simp only [svStep, svOn, svDestroy_out hE (h v), ok_bind]
  | copyCtor v w =>
    refine stepOut_on h _ v _ _ _ (svCtorRange_out hE (svContents E s w)) ?_ (fun s' hs => hs)
      (by show _ ≤ (s w).size; rw [(h w).size])
    simp only [svStep, svOn, svElems_ok (h w), svDestroy_out hE (h v), ok_bind]
  | moveCtor v w =>
    obtain ⟨v', w', e1, h1, h2⟩ := svMoveCtor_out hE (h w)
    obtain ⟨g, c1, c2, c3⟩ := good_upd2 h v w hpre v' w' _ _ h1 h2
    refine Or.inl ⟨_, ?_, g, c1, c2, c3⟩
    simp only [svStep, svOn2, svDestroy_out hE (h v), ok_bind, e1]

theorem svReach_good {E : SVEnv α} (hE : SVEnvOk E) {s : Nat → SVec α} (h : SVReach E s) : SVGood E s := by
  induction h with
  | init => exact good_of fun _ => ⟨[], rep_empty E hE⟩
  | step op _ hpre hsafe hs ih =>
    rcases svStep_out hE ih op hpre hsafe with ⟨s', e, hg, _⟩ | ⟨e, _⟩
    · rw [hs] at e
      cases e
      exact hg
    · rw [hs] at e; cases e

end Gapp.Model
