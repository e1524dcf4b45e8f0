import Verif.Proofs.SmallVectorThrowRun
/-!
# C91: small vectors own their memory, also when calls throw
-/

namespace Gapp.Props
open Gapp.Model Gapp.Spec

/-- C91. Programs over any number of small vectors, in which any call may fail in the middle. Full statement: the program has undefined behaviour only if it violates a precondition, and everything
that is allocated or constructed has one owner. Missing: constructors from an input range that throw; for these it is false (`C91_input_constructor_violated`). `pop_back` and `insert` of a range are not
part of the programs (C45).

The ideal vectors tell whether the program is valid, which calls throw and what each variable holds, also after a call that threw (`VecVars.step`). Every block that is allocated belongs to exactly one
variable, as its inline buffer or as the block that its elements are in; the objects in these blocks are exactly the elements; the elements are in the inline buffer if and only if the capacity is the
inline capacity. -/
theorem C91_small_vectors_partial {α : Type} (E : SvtEnv α) (n : Nat) (prog : List (Option Nat × SvtOp α))
    (hsafe : VecVars.SafeProgram E.inlineCap E.nothrowMove E.moved (List.replicate n none) prog) :
    match VecVars.program E.inlineCap E.nothrowMove E.moved (List.replicate n none) prog with
    | none => svtRun E (svtStart α n) prog = .undefined
    | some (d, flags) => ∃ s, svtRun E (svtStart α n) prog = .returned (s, flags) ∧
        (∀ x : Nat, svtObserve s x = ((d[x]?).join).map (fun q => (q.cap, q.items))) ∧
        (∀ a : Nat, (∃ slots, s.heap[a]? = some (some slots)) ↔ ∃! x : Nat, ∃ o, s.vars[x]? = some (some o) ∧ (o.inl = a ∨ o.cur = a)) ∧
        ∀ (x : Nat) o q, s.vars[x]? = some (some o) → d[x]? = some (some q) →
          s.heap[o.cur]? = some (some (q.items.map some ++ List.replicate (q.cap - q.items.length) none)) ∧ q.items.length ≤ q.cap ∧
          (o.cur ≠ o.inl → s.heap[o.inl]? = some (some (List.replicate E.inlineCap none))) ∧ (o.cur = o.inl ↔ q.cap = E.inlineCap) := by
  rcases svtRun_ok E prog (svtStart_ok E.inlineCap n) hsafe with ⟨h1, h2⟩ | ⟨d, flags, s, h1, h2, h3⟩
  · rw [h1]; exact h2
  · rw [h1]
    exact ⟨s, h2, h3.observe, h3.unique_owner, fun x o q e1 e2 => (h3.ok x o q e1 e2).objects⟩

/-- C91. When no variable is alive at the end, nothing is allocated and no object is left: also if calls threw. -/
theorem C91_nothing_leaks {α : Type} (E : SvtEnv α) (n : Nat) (prog : List (Option Nat × SvtOp α))
    (hsafe : VecVars.SafeProgram E.inlineCap E.nothrowMove E.moved (List.replicate n none) prog) (d : VecVars α) (flags : List Bool)
    (hp : VecVars.program E.inlineCap E.nothrowMove E.moved (List.replicate n none) prog = some (d, flags)) (hdead : ∀ q ∈ d, q = none) :
    ∃ s, svtRun E (svtStart α n) prog = .returned (s, flags) ∧ ∀ b ∈ s.heap, b = none := by
  rcases svtRun_ok E prog (svtStart_ok E.inlineCap n) hsafe with ⟨h1, h2⟩ | ⟨d', flags', s, h1, h2, h3⟩
  · rw [h1] at hp; cases hp
  · rw [h1] at hp; cases hp
    refine ⟨s, h2, ?_⟩
    intro b hb
    obtain ⟨a, ha, hab⟩ := List.getElem_of_mem hb
    rcases b with _ | slots
    · rfl
    · exfalso
      obtain ⟨x, o, hx, _⟩ := h3.owned a ⟨slots, by rw [List.getElem?_eq_getElem ha, hab]⟩
      obtain ⟨q, hq, _⟩ := h3.okAt hx
      have := hdead _ (List.mem_of_getElem? hq)
      cases this

/-- C91. The strong guarantee: If `push_back`, `reserve`, `shrink_to_fit`, a constructor from elements or from another vector, `emplace` at the end or into a full vector, or `swap` with a vector that is
not in its inline buffer throws, every variable has the elements and the capacity it had before. -/
theorem C91_strong_guarantee {α : Type} (E : SvtEnv α) (n : Nat) (prog : List (Option Nat × SvtOp α))
    (hsafe : VecVars.SafeProgram E.inlineCap E.nothrowMove E.moved (List.replicate n none) prog) (s : SvtMem α) (flags : List Bool)
    (hrun : svtRun E (svtStart α n) prog = .returned (s, flags)) (limit : Option Nat) (op : SvtOp α)
    (hop : match op with
      | .push _ _ | .reserve _ _ | .shrink _ | .ctor _ _ | .copy _ _ => True
      | .emplace x i _ => ∀ c xs, svtObserve s x = some (c, xs) → i = xs.length ∨ xs.length = c
      | .swap x y => ∀ c xs c' ys, svtObserve s x = some (c, xs) → svtObserve s y = some (c', ys) → c ≠ E.inlineCap ∨ c' ≠ E.inlineCap
      | _ => False)
    (s' : SvtMem α) (hthrew : svtStep E s limit op = .threw s') : ∀ x : Nat, svtObserve s' x = svtObserve s x := by
  rcases svtRun_ok E prog (svtStart_ok E.inlineCap n) hsafe with ⟨_, h2⟩ | ⟨d, fl, t, _, h2, h3⟩
  · rw [h2] at hrun; cases hrun
  · rw [h2] at hrun; cases hrun
    have hnot : ∀ x xs, op ≠ .ctorInput x xs := by
      rintro x xs rfl; exact hop
    have hs := svtStep_ok E h3 limit op (fun _ _ => hnot)
    rcases hst : d.step E.inlineCap E.nothrowMove E.moved limit op with _ | ⟨d', threw⟩
    · rw [hst] at hs
      simp only at hs
      rw [hs] at hthrew; cases hthrew
    · rw [hst] at hs
      obtain ⟨s1, h4, h5⟩ := hs
      rw [h4] at hthrew
      cases threw with
      | false => simp at hthrew
      | true =>
        simp only [if_true, CbOut.threw.injEq] at hthrew
        subst hthrew
        suffices ∀ x : Nat, d'[x]? = d[x]? by
          intro x; rw [h5.observe, h3.observe, this]
        have same : ∀ (x : Nat) (q : IdealVec α) (y : Nat), d[x]? = some (some q) → (d.set x (some q))[y]? = d[y]? := by
          intro x q y hx
          rw [svt_set_same hx]
        have att : ∀ (q w : IdealVec α) (cost : Nat), (IdealVec.attempt limit cost q w).2.1 = false → (IdealVec.attempt limit cost q w).1 = q := by
          intro q w cost h
          unfold IdealVec.attempt at h ⊢
          cases ht : DequeVars.throws limit cost with
          | true => rfl
          | false => rw [ht] at h; cases h
        have bld : ∀ (x : Nat) (xs : List α), d.build E.inlineCap x xs limit = (d', true) → d' = d := by
          intro x xs h
          unfold VecVars.build at h
          cases ht : DequeVars.throws limit ((if xs.length ≤ E.inlineCap then 0 else 1) + xs.length) with
          | true => rw [ht] at h; cases h; rfl
          | false => rw [ht] at h; cases h
        cases op with
        | push x v =>
          simp only [VecVars.step] at hst
          split at hst
          · rename_i q hx
            simp only [VecVars.put, Option.some.injEq, Prod.mk.injEq, Bool.not_eq_true'] at hst
            have : (q.push E.nothrowMove v limit).1 = q := by
              have h6 := hst.2
              unfold IdealVec.push at h6 ⊢
              split
              · rename_i hc; rw [if_pos hc] at h6; exact att _ _ _ h6
              · rename_i hc; rw [if_neg hc] at h6; exact att _ _ _ h6
            intro y
            rw [← hst.1, this]; exact same x q y hx
          · simp at hst
        | reserve x m =>
          simp only [VecVars.step] at hst
          split at hst
          · rename_i q hx
            simp only [VecVars.put, Option.some.injEq, Prod.mk.injEq, Bool.not_eq_true'] at hst
            have : (q.reserve E.nothrowMove m limit).1 = q := by
              have h6 := hst.2
              unfold IdealVec.reserve at h6 ⊢
              split
              · rename_i hc; rw [if_pos hc] at h6; exact att _ _ _ h6
              · rfl
            intro y
            rw [← hst.1, this]; exact same x q y hx
          · simp at hst
        | shrink x =>
          simp only [VecVars.step] at hst
          split at hst
          · rename_i q hx
            split at hst
            · simp only [VecVars.put, Option.some.injEq, Prod.mk.injEq, Bool.not_eq_true'] at hst
              have : (q.recap E.nothrowMove q.items.length limit).1 = q := att _ _ _ hst.2
              intro y
              rw [← hst.1, this]; exact same x q y hx
            · simp at hst
          · simp at hst
        | ctor x xs =>
          simp only [VecVars.step] at hst
          split at hst
          · simp only [Option.some.injEq] at hst
            intro y; rw [bld x xs hst]
          · simp at hst
        | copy x y =>
          simp only [VecVars.step] at hst
          split at hst
          · simp only [Option.some.injEq] at hst
            intro y; rw [bld x _ hst]
          · simp at hst
        | emplace x i v =>
          simp only [VecVars.step] at hst
          split at hst
          · rename_i q hx
            have hq := hop q.cap q.items (by rw [h3.observe, hx]; rfl)
            split at hst
            · simp only [VecVars.put, Option.some.injEq, Prod.mk.injEq, Bool.not_eq_true'] at hst
              have : (q.emplace E.nothrowMove E.moved i v limit).1 = q := by
                have h6 := hst.2
                unfold IdealVec.emplace at h6 ⊢
                simp only at h6 ⊢
                split_ifs at h6 ⊢ <;> first | rfl | (simp at h6; done) | (exfalso; omega)
              intro y
              rw [← hst.1, this]; exact same x q y hx
            · simp at hst
          · simp at hst
        | swap x y =>
          simp only [VecVars.step] at hst
          split at hst
          · rename_i q q' hx hy
            have hq := hop q.cap q.items q'.cap q'.items (by rw [h3.observe, hx]; rfl) (by rw [h3.observe, hy]; rfl)
            split at hst
            · simp at hst
            · simp only [VecVars.put2, Option.some.injEq, Prod.mk.injEq, Bool.not_eq_true'] at hst
              have : (q.swap E.inlineCap E.nothrowMove E.moved q' limit) = (q, q', false) := by
                have h6 := hst.2
                unfold IdealVec.swap at h6 ⊢
                rcases hq with hq | hq
                · simp only [hq, ne_eq, not_false_eq_true, true_and, false_and, if_false] at h6 ⊢
                  split_ifs at h6 ⊢
                  rfl
                · simp only [hq, ne_eq, not_false_eq_true, and_true, and_false, if_false] at h6 ⊢
                  split_ifs at h6 ⊢
                  rfl
              intro z
              rw [← hst.1, this]
              simp only
              rw [svt_set_same hx, svt_set_same hy]
          · simp at hst
        | _ => exact absurd hop (by simp)

/-- C91. If moving an element never throws, no move construction, move assignment, `swap`, `erase`, `clear` or destruction throws. -/
theorem C91_moves_do_not_throw {α : Type} (E : SvtEnv α) (hnm : E.nothrowMove = true) (n : Nat) (prog : List (Option Nat × SvtOp α))
    (hsafe : VecVars.SafeProgram E.inlineCap E.nothrowMove E.moved (List.replicate n none) prog) (s : SvtMem α) (flags : List Bool)
    (hrun : svtRun E (svtStart α n) prog = .returned (s, flags)) (limit : Option Nat) (op : SvtOp α)
    (hop : match op with
      | .move _ _ | .assignMove _ _ _ | .swap _ _ | .erase _ _ _ | .clear _ | .reset _ | .destroy _ => True
      | _ => False)
    (s' : SvtMem α) : svtStep E s limit op ≠ .threw s' := by
  intro hthrew
  rcases svtRun_ok E prog (svtStart_ok E.inlineCap n) hsafe with ⟨_, h2⟩ | ⟨d, fl, t, _, h2, h3⟩
  · rw [h2] at hrun; cases hrun
  · rw [h2] at hrun; cases hrun
    have hnot : ∀ x xs, op ≠ .ctorInput x xs := by
      rintro x xs rfl; exact hop
    have hs := svtStep_ok E h3 limit op (fun _ _ => hnot)
    have no : ∀ k : Nat, DequeVars.throws limit (IdealVec.copies true k) = false := by
      intro k; cases limit <;> simp [DequeVars.throws, IdealVec.copies]
    have no' : ∀ (l : Option Nat) (k : Nat), DequeVars.throws l (IdealVec.copies true k) = false := by
      intro l k; cases l <;> simp [DequeVars.throws, IdealVec.copies]
    have inl : ∀ p q : IdealVec α, (p.swapInline true E.moved q limit).2.2 = true := by
      intro p q; simp [IdealVec.swapInline, no, no']
    rcases hst : d.step E.inlineCap E.nothrowMove E.moved limit op with _ | ⟨d', threw⟩
    · rw [hst] at hs
      simp only at hs
      rw [hs] at hthrew; cases hthrew
    · rw [hst] at hs
      obtain ⟨s1, h4, _⟩ := hs
      have : threw = false := by
        rw [hnm] at hst
        cases op with
        | move x y => simp only [VecVars.step] at hst; split at hst <;> simp [no] at hst <;> simp [hst]
        | assignMove x y fwd =>
          simp only [VecVars.step] at hst
          split at hst
          · split at hst
            · simp at hst; simp [hst]
            · simp only [VecVars.put2, Option.some.injEq, Prod.mk.injEq] at hst
              rw [← hst.2]
              unfold IdealVec.assignMove
              split <;> simp [no]
          · simp at hst
        | swap x y =>
          simp only [VecVars.step] at hst
          split at hst
          · split at hst
            · simp at hst; simp [hst]
            · simp only [VecVars.put2, Option.some.injEq, Prod.mk.injEq] at hst
              rw [← hst.2]
              unfold IdealVec.swap
              split_ifs <;> simp_all
          · simp at hst
        | erase x i j =>
          simp only [VecVars.step] at hst
          split at hst
          · split at hst
            · simp only [VecVars.put, Option.some.injEq, Prod.mk.injEq] at hst
              rw [← hst.2]
              unfold IdealVec.erase
              simp [no]
            · simp at hst
          · simp at hst
        | clear x => simp only [VecVars.step] at hst; split at hst <;> simp at hst <;> simp [hst]
        | reset x => simp only [VecVars.step] at hst; split at hst <;> simp at hst <;> simp [hst]
        | destroy x => simp only [VecVars.step] at hst; split at hst <;> simp at hst <;> simp [hst]
        | _ => exact absurd hop (by simp)
      rw [h4, this] at hthrew
      simp at hthrew

/-- C91. Programs in which the hypothesis holds: constructors from input ranges do not fail. -/
theorem C91_safe_programs {α : Type} (E : SvtEnv α) (prog : List (Option Nat × SvtOp α)) (h : ∀ p ∈ prog, p.1 = none ∨ ∀ x xs, p.2 ≠ .ctorInput x xs) :
    ∀ d, VecVars.SafeProgram E.inlineCap E.nothrowMove E.moved d prog := by
  have hpush : ∀ (xs : List α) (v : IdealVec α), (v.pushAll E.nothrowMove xs none).2.1 = true := by
    intro xs
    induction xs with
    | nil => intro v; rfl
    | cons x xs ih =>
      intro v
      unfold IdealVec.pushAll
      have : ∃ w, v.push E.nothrowMove x none = (w, true, none) := by
        unfold IdealVec.push IdealVec.attempt
        split <;> simp [DequeVars.throws, IdealVec.left]
      obtain ⟨w, hw⟩ := this
      rw [hw]; exact ih w
  induction prog with
  | nil => intro d; exact trivial
  | cons p prog ih =>
    obtain ⟨limit, op⟩ := p
    intro d d' threw hst
    refine ⟨?_, ih (fun p hp => h p (List.mem_cons_of_mem _ hp)) d'⟩
    rintro ⟨x, xs, rfl⟩
    rcases h (limit, .ctorInput x xs) (by simp) with h1 | h1
    · simp only at h1
      subst h1
      simp only [VecVars.step] at hst
      split at hst
      · split at hst
        · simp at hst; exact hst.2
        · rename_i w l hp
          have := hpush xs ⟨E.inlineCap, []⟩
          rw [hp] at this; cases this
      · cases hst
    · exact absurd rfl (h1 x xs)

/-- Inline capacity 2, elements that are copied when they are relocated, 0 is left after a move. -/
def svtExampleEnv : SvtEnv Nat := ⟨2, false, fun _ => 0⟩

/-- Three vectors. The calls that throw: a copy construction at its second element, an append that fails in the middle of relocating, an assignment in place at its second element,
a move construction at its second element. -/
def svtExample : List (Option Nat × SvtOp Nat) :=
  [(none, .ctor 0 [1, 2, 3]), (some 2, .copy 1 0), (none, .ctorInput 1 [4, 5]), (some 3, .push 1 6), (none, .push 1 6), (some 1, .assign 1 [7, 8]), (none, .assignCopy 1 0),
   (none, .ctor 2 [1, 2]), (none, .destroy 0), (some 1, .move 0 2), (none, .move 0 2), (none, .resize 1 5 9), (none, .shrink 1)]

example : VecVars.SafeProgram svtExampleEnv.inlineCap svtExampleEnv.nothrowMove svtExampleEnv.moved (List.replicate 3 none) svtExample :=
  C91_safe_programs svtExampleEnv svtExample (by
    intro p hp
    simp only [svtExample, List.mem_cons, List.not_mem_nil, or_false] at hp
    rcases hp with rfl | rfl | rfl | rfl | rfl | rfl | rfl | rfl | rfl | rfl | rfl | rfl | rfl <;> simp) _

example : VecVars.program 2 false (fun _ => 0) (List.replicate 3 none) svtExample =
    some ([some ⟨2, [0, 2]⟩, some ⟨5, [1, 2, 3, 9, 9]⟩, some ⟨2, []⟩], [false, true, false, true, false, true, false, false, false, true, false, false, false]) := by
  decide +kernel

example : (match svtRun svtExampleEnv (svtStart Nat 3) svtExample with
    | .returned (s, flags) => some ((List.range 3).map (svtObserve s), flags)
    | _ => none) =
    some ([some (2, [0, 2]), some (5, [1, 2, 3, 9, 9]), some (2, [])], [false, true, false, true, false, true, false, false, false, true, false, false, false]) := by
  decide +kernel

example : (VecVars.program 2 false (fun _ => 0) (List.replicate 3 none) (svtExample ++ [(none, .destroy 0), (none, .destroy 1), (none, .destroy 2)])).map (fun r => r.1.map Option.isNone) =
    some [true, true, true] := by
  decide +kernel

/-- Elements that move: an insertion in the middle that throws, an erasure that throws, a move assignment that throws, a swap that throws between inline vectors, and the same without exceptions. -/
def svtExample2 : List (Option Nat × SvtOp Nat) :=
  [(none, .ctor 0 [1, 2, 3]), (none, .reserve 0 6), (some 3, .emplace 0 0 9), (none, .emplace 0 1 8), (some 2, .erase 0 1 2), (none, .erase 0 1 3), (none, .ctor 1 [4, 5]), (some 1, .assignMove 0 1 true),
   (none, .assignMove 0 1 true), (none, .ctor 2 [6]), (some 2, .swap 1 2), (none, .swap 1 2), (some 0, .swap 2 0), (none, .swap 2 0)]

example : VecVars.SafeProgram svtExampleEnv.inlineCap svtExampleEnv.nothrowMove svtExampleEnv.moved (List.replicate 3 none) svtExample2 :=
  C91_safe_programs svtExampleEnv svtExample2 (by
    intro p hp
    simp only [svtExample2, List.mem_cons, List.not_mem_nil, or_false] at hp
    rcases hp with rfl | rfl | rfl | rfl | rfl | rfl | rfl | rfl | rfl | rfl | rfl | rfl | rfl | rfl <;> simp) _

example : VecVars.program 2 false (fun _ => 0) (List.replicate 3 none) svtExample2 =
    some ([some ⟨2, [0, 0]⟩, some ⟨2, [0]⟩, some ⟨6, [0, 5]⟩], [false, false, true, false, true, false, false, true, false, false, true, false, true, false]) := by
  decide +kernel

example : (match svtRun svtExampleEnv (svtStart Nat 3) svtExample2 with
    | .returned (s, flags) => some ((List.range 3).map (svtObserve s), flags)
    | _ => none) =
    some ([some (2, [0, 0]), some (2, [0]), some (6, [0, 5])], [false, false, true, false, true, false, false, true, false, false, true, false, true, false]) := by
  decide +kernel

/-- The call that throws in `C91_strong_guarantee`: appending a third element fails when the second one is relocated. -/
example : (match svtRun svtExampleEnv (svtStart Nat 1) [(none, .ctor 0 [4, 5])] with
    | .returned (s, _) => (match svtStep svtExampleEnv s (some 3) (.push 0 6) with
      | .threw s' => some (svtObserve s' 0)
      | _ => none)
    | _ => none) = some (some (2, [4, 5])) := by decide +kernel

/-- The calls in `C91_strong_guarantee` that move: an insertion into a full vector that fails while the old elements are relocated, and a swap of a long and a short vector. -/
example : (match svtRun svtExampleEnv (svtStart Nat 2) [(none, .ctor 0 [4, 5]), (none, .ctor 1 [1, 2, 3])] with
    | .returned (s, _) => (match svtStep svtExampleEnv s (some 3) (.emplace 0 1 6), svtStep svtExampleEnv s (some 1) (.swap 0 1) with
      | .threw s', .threw s'' => some (svtObserve s' 0, svtObserve s'' 0, svtObserve s'' 1)
      | _, _ => none)
    | _ => none) = some (some (2, [4, 5]), some (2, [4, 5]), some (3, [1, 2, 3])) := by decide +kernel

/-- C91. The constructor from an input range: if an append throws, the elements appended before are never destroyed, and the block that was allocated for them is never freed. No variable is alive. -/
theorem C91_input_constructor_violated :
    svtRun svtExampleEnv (svtStart Nat 1) [(some 1, .ctorInput 0 [4, 5])] = .returned (⟨[some [some 4, none]], [none]⟩, [true]) ∧
    svtRun svtExampleEnv (svtStart Nat 1) [(some 6, .ctorInput 0 [4, 5, 6, 7])] =
      .returned (⟨[none, some [some 4, some 5, some 6]], [none]⟩, [true]) ∧
    VecVars.program 2 false (fun _ => 0) (List.replicate 1 none) [(some 6, .ctorInput 0 [4, 5, 6, 7])] = some ([none], [true]) := by
  refine ⟨by decide +kernel, by decide +kernel, rfl⟩

end Gapp.Props
