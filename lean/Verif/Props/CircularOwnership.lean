import Verif.Proofs.CircularOwnership
/-!
# C90: circular buffers own their memory, also when calls throw
-/

namespace Gapp.Props
open Gapp.Model Gapp.Spec

/-- C90. Programs over any number of circular buffers, in which any call may fail in the middle. Full statement: the program has undefined behaviour only if it violates a precondition, it never
terminates, a call that throws changes nothing, and everything that is allocated has one owner. Missing: calls in which one of the three defects shows (`DequeVars.Safe`); for these the statement
is false (`C90_set_capacity_violated`, `C90_reset_violated`, `C90_push_front_violated`).

The ideal deques tell whether the program is valid, which calls throw and what each variable holds; every block that is allocated has exactly one variable that points to it, has the size of its
capacity, and the objects in it are exactly the elements of the variable. -/
theorem C90_circular_buffers_partial {α : Type} (n : Nat) (nothrowMove : Bool) (prog : List (Option Nat × CbOp α))
    (hsafe : DequeVars.SafeProgram nothrowMove (List.replicate n none) prog) :
    match DequeVars.program nothrowMove (List.replicate n none) prog with
    | none => cbRun nothrowMove (cbStart α n) prog = .undefined
    | some (d, flags) => ∃ s, cbRun nothrowMove (cbStart α n) prog = .returned (s, flags) ∧
        (∀ x : Nat, cbObserve s x = ((d[x]?).join).map (fun q => (q.cap, q.items))) ∧
        (∀ a : Nat, (∃ slots, s.heap[a]? = some (some slots)) ↔ ∃! x : Nat, ∃ o, s.vars[x]? = some (some o) ∧ o.buf = some a) ∧
        ∀ (x : Nat) o q a slots, s.vars[x]? = some (some o) → d[x]? = some (some q) → o.buf = some a → s.heap[a]? = some (some slots) →
          slots.length = q.cap ∧ (slots.filterMap id).Perm q.items := by
  rcases cbRun_ok nothrowMove prog (cbStart_ok n) hsafe with ⟨h1, h2⟩ | ⟨d, flags, s, h1, h2, h3⟩
  · rw [h1]; exact h2
  · rw [h1]
    exact ⟨s, h2, h3.observe, h3.unique_owner, fun x o q a slots e1 e2 e3 e4 => h3.objects e1 e2 e3 e4⟩

/-- C90. When no variable is alive at the end, nothing is allocated: no block and no element leaks, also if calls threw. -/
theorem C90_nothing_leaks {α : Type} (n : Nat) (nothrowMove : Bool) (prog : List (Option Nat × CbOp α))
    (hsafe : DequeVars.SafeProgram nothrowMove (List.replicate n none) prog) (d : DequeVars α) (flags : List Bool)
    (hp : DequeVars.program nothrowMove (List.replicate n none) prog = some (d, flags)) (hdead : ∀ q ∈ d, q = none) :
    ∃ s, cbRun nothrowMove (cbStart α n) prog = .returned (s, flags) ∧ ∀ b ∈ s.heap, b = none := by
  rcases cbRun_ok nothrowMove prog (cbStart_ok n) hsafe with ⟨h1, h2⟩ | ⟨d', flags', s, h1, h2, h3⟩
  · rw [h1] at hp; cases hp
  · rw [h1] at hp; cases hp
    refine ⟨s, h2, ?_⟩
    intro b hb
    obtain ⟨a, ha, hab⟩ := List.getElem_of_mem hb
    rcases b with _ | slots
    · rfl
    · exfalso
      obtain ⟨x, o, hx, _⟩ := h3.owned a slots (by rw [List.getElem?_eq_getElem ha, hab])
      obtain ⟨q, hq, _⟩ := h3.okAt hx
      have := hdead _ (List.mem_of_getElem? hq)
      cases this

/-- C90. Programs in which the hypothesis holds: every call either cannot fail or is not one of the three. -/
theorem C90_safe_programs {α : Type} (nothrowMove : Bool) (prog : List (Option Nat × CbOp α))
    (h : ∀ p ∈ prog, p.1 = none ∨
      ((∀ x m, p.2 ≠ .call x (.setCapacity m)) ∧ (∀ x m, p.2 ≠ .call x (.reset m)) ∧ ∀ x v, p.2 ≠ .call x (.pushFront v))) :
    ∀ d, DequeVars.SafeProgram nothrowMove d prog := by
  induction prog with
  | nil => intro d; exact trivial
  | cons p prog ih =>
    obtain ⟨limit, op⟩ := p
    intro d
    refine ⟨?_, fun d' _ => ih (fun p hp => h p (List.mem_cons_of_mem _ hp)) _⟩
    rcases h (limit, op) (by simp) with h1 | h1
    · simp only at h1
      subst h1
      unfold DequeVars.Safe
      split <;> simp [DequeVars.throws]
    · unfold DequeVars.Safe
      split
      · rename_i x m; exact absurd rfl (h1.1 x m)
      · rename_i x m; exact absurd rfl (h1.2.1 x m)
      · rename_i x v; exact absurd rfl (h1.2.2 x v)
      · trivial

/-- Two buffers with copies that throw: the copy construction of variable 1 fails at its second element, the assignment fails at its allocation; then both succeed. -/
def cbExample : List (Option Nat × CbOp Nat) :=
  [(none, .range 0 3 [1, 2, 3, 4]), (some 2, .copy 1 0), (none, .sized 1 5), (none, .call 1 (.pushFront 7)), (some 0, .assignCopy 1 0), (some 0, .call 1 (.pushBack 8)),
   (none, .assignCopy 1 0), (none, .call 1 (.setCapacity 2)), (none, .assignMove 0 1), (none, .swap 0 1)]

example : DequeVars.SafeProgram false (List.replicate 2 none) cbExample :=
  C90_safe_programs false cbExample (by
    intro p hp
    simp only [cbExample, List.mem_cons, List.not_mem_nil, or_false] at hp
    rcases hp with rfl | rfl | rfl | rfl | rfl | rfl | rfl | rfl | rfl | rfl <;> simp) _

example : cbRun false (cbStart Nat 2) cbExample =
    .returned (⟨[none, none, none, none, some [some 2, some 3]], [some ⟨none, 0, 0, 0⟩, some ⟨some 4, 0, 2, 2⟩]⟩,
      [false, true, false, false, true, true, false, false, false, false]) := by decide +kernel

example : (DequeVars.program false (List.replicate 2 none) (cbExample ++ [(none, .destroy 0), (none, .destroy 1)])).map (fun r => (r.1.map Option.isNone, r.2)) =
    some ([true, true], [false, true, false, false, true, true, false, false, false, false, false, false]) := by decide +kernel

/-- C90. `set_capacity` with elements whose move constructor may throw: if copying an element throws, the guard deallocates the old block, in which elements live, with the new capacity. -/
theorem C90_set_capacity_violated :
    DequeVars.program false (List.replicate 1 none) [(none, CbOp.range 0 2 [1, 2]), (some 2, .call 0 (.setCapacity 3))] = some ([some ⟨2, [1, 2]⟩], [false, true]) ∧
    cbRun false (cbStart Nat 1) [(none, CbOp.range 0 2 [1, 2]), (some 2, .call 0 (.setCapacity 3))] = .undefined := by
  refine ⟨rfl, by decide +kernel⟩

/-- C90. `reset`: if the allocation throws, the variable keeps a pointer to the block that was freed, and its destructor frees it again. -/
theorem C90_reset_violated :
    cbRun false (cbStart Nat 1) [(none, CbOp.range 0 2 [1, 2]), (some 0, .call 0 (.reset 3))] = .returned (⟨[none], [some ⟨some 0, 0, 0, 2⟩]⟩, [false, true]) ∧
    cbRun false (cbStart Nat 1) [(none, CbOp.range 0 2 [1, 2]), (some 0, .call 0 (.reset 3)), (none, .destroy 0)] = .undefined ∧
    (DequeVars.program false (List.replicate 1 none) [(none, CbOp.range 0 2 [1, 2]), (some 0, .call 0 (.reset 3)), (none, .destroy 0)]).isSome = true := by
  refine ⟨by decide +kernel, by decide +kernel, rfl⟩

/-- C90. `push_front(const T&)` copies its argument but is `noexcept` if elements can be moved without exceptions: a copy that throws ends the program. `push_back` throws instead. -/
theorem C90_push_front_violated :
    cbRun true (cbStart Nat 1) [(none, CbOp.sized 0 2), (some 0, .call 0 (.pushFront 7))] = .terminated ∧
    cbRun true (cbStart Nat 1) [(none, CbOp.sized 0 2), (some 0, .call 0 (.pushBack 7))] = .returned (⟨[some [none, none]], [some ⟨some 0, 0, 0, 2⟩]⟩, [false, true]) ∧
    (DequeVars.program true (List.replicate 1 none) [(none, CbOp.sized 0 2), (some 0, .call 0 (.pushFront 7))]).isSome = true := by
  refine ⟨by decide +kernel, by decide +kernel, rfl⟩

end Gapp.Props
