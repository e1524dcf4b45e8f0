import Verif.Model.Functional
/-!
# Specification of the function wrappers

A `move_only_function` is a value: it is empty or has a callable. There is no free store.
-/

namespace Gapp.Spec
open Gapp.Model
variable {σ A R E : Type}

/-- The variables; a variable that does not exist (any more) is `none`, an empty wrapper is `some none`. -/
abbrev FnVars (σ : Type) := List (Option (Option (FnObj σ)))

/-- The value of a live variable. -/
def FnVars.get (v : FnVars σ) (i : Nat) : Option (Option (FnObj σ)) := v[i]?.join

/-- What the operations of a wrapper mean. The held callable is destroyed when it is replaced or when the wrapper is destroyed, and at no other time; moving from a wrapper leaves it empty;
moving a wrapper to itself does nothing; if the construction of a callable fails, the wrapper keeps its value; an empty wrapper must not be called. -/
def FnVars.step (behave : Nat → σ → A → Option (σ × Except E R)) (v : FnVars σ) : MofOp σ A → Option (FnVars σ × FnObs σ R E)
  | .declEmpty => some (v ++ [some none], {})
  | .declFrom f fails => some (if fails then (v ++ [none], { failed := true, destroyed := [f] }) else (v ++ [some (some f)], {}))
  | .declMove j => (v.get j).map (fun x => (v.set j (some none) ++ [some x], {}))
  | .assignNull i => (v.get i).map (fun old => (v.set i (some none), { destroyed := old.toList }))
  | .assignFrom i f fails => (v.get i).map (fun old =>
      if fails then (v, { failed := true, destroyed := [f] }) else (v.set i (some (some f)), { destroyed := old.toList }))
  | .assignMove i j =>
    match v.get i, v.get j with
    | some old, some x => some (if i = j then (v, {}) else ((v.set i (some x)).set j (some none), { destroyed := old.toList }))
    | _, _ => none
  | .swap i j =>
    match v.get i, v.get j with
    | some x, some y => some ((v.set i (some y)).set j (some x), {})
    | _, _ => none
  | .test i => (v.get i).map (fun x => (v, { flag := some x.isSome }))
  | .call i a =>
    match v.get i with
    | some (some f) => (behave f.ty f.state a).map (fun p => (v.set i (some (some ⟨f.ty, p.1⟩)), { result := some p.2 }))
    | _ => none
  | .destroy i => (v.get i).map (fun old => (v.set i none, { destroyed := old.toList }))

/-- A sequence of operations. -/
def FnVars.run (behave : Nat → σ → A → Option (σ × Except E R)) (v : FnVars σ) : List (MofOp σ A) → Option (FnVars σ × List (FnObs σ R E))
  | [] => some (v, [])
  | op :: ops => do
    let (v, o) ← FnVars.step behave v op
    let (v, os) ← FnVars.run behave v ops
    return (v, o :: os)

/-- The callables held by the live wrappers. -/
def FnVars.held (v : FnVars σ) : List (FnObj σ) := (v.filterMap id).filterMap id

/-- The callables that a sequence of operations put into wrappers or tried to (those whose construction failed are destroyed at once). -/
def constructed : List (MofOp σ A) → List (FnObj σ)
  | [] => []
  | .declFrom f _ :: ops => f :: constructed ops
  | .assignFrom _ f _ :: ops => f :: constructed ops
  | _ :: ops => constructed ops

/-- The objects, and for each reference the object it refers to. -/
structure RefVars (σ : Type) where
  objs : List (Option (FnObj σ))
  refs : List (Option Nat)

/-- What the operations of a reference mean: calling it is calling the object. An empty reference, and a reference to an object that does not exist any more, must not be called. -/
def RefVars.step (behave : Nat → σ → A → Option (σ × Except E R)) (v : RefVars σ) : RefOp σ A → Option (RefVars σ × FnObs σ R E)
  | .declObj f => some (⟨v.objs ++ [some f], v.refs⟩, {})
  | .endObj o => (v.objs[o]?.join).map (fun f => (⟨v.objs.set o none, v.refs⟩, { destroyed := [f] }))
  | .callObj o a => callObject v o a
  | .declEmpty => some (⟨v.objs, v.refs ++ [none]⟩, {})
  | .declRef o => (v.objs[o]?.join).map (fun _ => (⟨v.objs, v.refs ++ [some o]⟩, {}))
  | .assignRef r o => if (v.objs[o]?.join).isSome ∧ r < v.refs.length then some (⟨v.objs, v.refs.set r (some o)⟩, {}) else none
  | .copyRef r q => (v.refs[q]?).bind (fun x => if r < v.refs.length then some (⟨v.objs, v.refs.set r x⟩, {}) else none)
  | .test r => (v.refs[r]?).map (fun x => (v, { flag := some x.isSome }))
  | .call r a => (v.refs[r]?.join).bind (fun o => callObject v o a)
where
  /-- A call of an object. -/
  callObject (v : RefVars σ) (o : Nat) (a : A) : Option (RefVars σ × FnObs σ R E) :=
    (v.objs[o]?.join).bind (fun f => (behave f.ty f.state a).map (fun p => (⟨v.objs.set o (some ⟨f.ty, p.1⟩), v.refs⟩, { result := some p.2 })))

/-- A sequence of operations. -/
def RefVars.run (behave : Nat → σ → A → Option (σ × Except E R)) (v : RefVars σ) : List (RefOp σ A) → Option (RefVars σ × List (FnObs σ R E))
  | [] => some (v, [])
  | op :: ops => do
    let (v, o) ← RefVars.step behave v op
    let (v, os) ← RefVars.run behave v ops
    return (v, o :: os)

end Gapp.Spec
