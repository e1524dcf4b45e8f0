/-!
# Type-erased function wrappers

Source: `/repo/src/utility/functional.hpp:211-325`. `move_only_function` is the type of the tasks of the thread pool (`thread_pool.hpp:113`).

A callable object has a type and a state. `behave ty state arg` is what a call of an object of the type `ty` does: the new state, and a result or an exception; `none` is a
call with undefined behaviour (of a null function pointer, for example). The free store is a list of cells, an address is the index of a cell, and a cell that was deleted
is `none`. Undefined behaviour and failed assertions are `none`.

The copies of the callable that are made while it is passed to the wrapper (the parameters `f` and `func`) are moved from, and are not in the model.
-/

namespace Gapp.Model

/-- functional.hpp:268, 313: A callable object: its type and its state. -/
structure FnObj (σ : Type) where
  ty : Nat
  state : σ
  deriving DecidableEq, Repr

/-- functional.hpp:260-325: What is seen of an operation: its result, and the callable objects that were destroyed by it. -/
structure FnObs (σ R E : Type) where
  result : Option (Except E R) := none
  flag : Option Bool := none
  failed : Bool := false
  destroyed : List (FnObj σ) := []

/-- functional.hpp:260-325: The operations of `move_only_function`. Variables are numbered in the order of their declarations. `fails`: the allocation, or the move of the callable, throws. -/
inductive MofOp (σ A : Type) where
  | declEmpty
  | declFrom (f : FnObj σ) (fails : Bool)
  | declMove (j : Nat)
  | assignNull (i : Nat)
  | assignFrom (i : Nat) (f : FnObj σ) (fails : Bool)
  | assignMove (i j : Nat)
  | swap (i j : Nat)
  | test (i : Nat)
  | call (i : Nat) (a : A)
  | destroy (i : Nat)

/-- functional.hpp:323: The free store, and the pointer `fptr_` of each variable; the variable is `none` before its construction and after its destruction. -/
structure MofState (σ : Type) where
  heap : List (Option (FnObj σ))
  vars : List (Option (Option Nat))
  deriving DecidableEq

namespace MofState
variable {σ A R E : Type}

/-- functional.hpp:323: `fptr_` of a live variable. -/
def ptr (s : MofState σ) (i : Nat) : Option (Option Nat) := s.vars[i]?.join

/-- functional.hpp:269, 276 `std::make_unique<Impl<F>>(std::move(f))`. -/
def alloc (s : MofState σ) (f : FnObj σ) : MofState σ × Nat := ({ s with heap := s.heap ++ [some f] }, s.heap.length)

/-- functional.hpp:302, 323: `delete` of a pointer, through the virtual destructor; deleting an object twice is undefined. -/
def delete (s : MofState σ) : Option Nat → Option (MofState σ × List (FnObj σ))
  | none => some (s, [])
  | some a => (s.heap[a]?.join).map (fun f => ({ s with heap := s.heap.set a none }, [f]))

/-- functional.hpp:276, 281: `unique_ptr::reset(p)`: the pointer is replaced, then the old object is deleted. -/
def reset (s : MofState σ) (i : Nat) (p : Option Nat) : Option (MofState σ × List (FnObj σ)) := do
  let old ← s.ptr i
  delete { s with vars := s.vars.set i (some p) } old

/-- functional.hpp:280-281: `unique_ptr::release()`. -/
def release (s : MofState σ) (i : Nat) : Option (MofState σ × Option Nat) := do
  let p ← s.ptr i
  return ({ s with vars := s.vars.set i (some none) }, p)

/-- functional.hpp:260-325 `move_only_function`. -/
def step (behave : Nat → σ → A → Option (σ × Except E R)) (s : MofState σ) : MofOp σ A → Option (MofState σ × FnObs σ R E)
  | .declEmpty => some ({ s with vars := s.vars ++ [some none] }, {})
  | .declFrom f fails =>
    if fails then some ({ s with vars := s.vars ++ [none] }, { failed := true, destroyed := [f] })
    else
      let (s, a) := s.alloc f
      some ({ s with vars := s.vars ++ [some (some a)] }, {})
  | .declMove j => do
    let (s, p) ← s.release j
    return ({ s with vars := s.vars ++ [some p] }, {})
  | .assignNull i => do
    -- the temporary is constructed from nullptr, moved from and destroyed
    let (s, d) ← s.reset i none
    return (s, { destroyed := d })
  | .assignFrom i f fails => do
    let _ ← s.ptr i
    if fails then return (s, { failed := true, destroyed := [f] })
    else
      let (s, a) := s.alloc f
      let (s, d) ← s.reset i (some a)
      return (s, { destroyed := d })
  | .assignMove i j => do
    let (s, p) ← s.release j
    let (s, d) ← s.reset i p
    return (s, { destroyed := d })
  | .swap i j => do
    let p ← s.ptr i
    let q ← s.ptr j
    return ({ s with vars := (s.vars.set i (some q)).set j (some p) }, {})
  | .test i => do
    let p ← s.ptr i
    return (s, { flag := some p.isSome })
  | .call i a => do
    let p ← s.ptr i
    let addr ← p
    let f ← s.heap[addr]?.join
    let (state, r) ← behave f.ty f.state a
    return ({ s with heap := s.heap.set addr (some ⟨f.ty, state⟩) }, { result := some r })
  | .destroy i => do
    let p ← s.ptr i
    let (s, d) ← delete { s with vars := s.vars.set i none } p
    return (s, { destroyed := d })

/-- functional.hpp:260-325: A sequence of operations, and what is seen of them. -/
def run (behave : Nat → σ → A → Option (σ × Except E R)) (s : MofState σ) : List (MofOp σ A) → Option (MofState σ × List (FnObs σ R E))
  | [] => some (s, [])
  | op :: ops => do
    let (s, o) ← s.step behave op
    let (s, os) ← s.run behave ops
    return (s, o :: os)

end MofState

/-! ## References to functions -/

/-- functional.hpp:211-255: The operations of `function_ref`, and the declaration, calls and the end of the life of the callable objects it may refer to. -/
inductive RefOp (σ A : Type) where
  | declObj (f : FnObj σ)
  | endObj (o : Nat)
  | callObj (o : Nat) (a : A)
  | declEmpty
  | declRef (o : Nat)
  | assignRef (r o : Nat)
  | copyRef (r q : Nat)
  | test (r : Nat)
  | call (r : Nat) (a : A)

/-- functional.hpp:253-254: The objects in memory, and `callable_` and `invoke_` of the references; `invoke_` is given by the type of the callable it expects. -/
structure RefState (σ : Type) where
  objs : List (Option (FnObj σ))
  refs : List (Option Nat × Option Nat)
  deriving DecidableEq

namespace RefState
variable {σ A R E : Type}

/-- functional.hpp:248-251 `invoke_fn<Callable>`: the object at the address is called as an object of the type `ty`. If it is not there, or of another type, the behaviour is undefined. -/
def invoke (behave : Nat → σ → A → Option (σ × Except E R)) (s : RefState σ) (ty o : Nat) (a : A) : Option (RefState σ × FnObs σ R E) := do
  let f ← s.objs[o]?.join
  if f.ty = ty then
    let (state, r) ← behave ty f.state a
    return ({ s with objs := s.objs.set o (some ⟨ty, state⟩) }, { result := some r })
  else none

/-- functional.hpp:211-255 `function_ref`. -/
def step (behave : Nat → σ → A → Option (σ × Except E R)) (s : RefState σ) : RefOp σ A → Option (RefState σ × FnObs σ R E)
  | .declObj f => some ({ s with objs := s.objs ++ [some f] }, {})
  | .endObj o => do
    let f ← s.objs[o]?.join
    return ({ s with objs := s.objs.set o none }, { destroyed := [f] })
  | .callObj o a => do
    let f ← s.objs[o]?.join
    s.invoke behave f.ty o a
  | .declEmpty => some ({ s with refs := s.refs ++ [(none, none)] }, {})
  | .declRef o => do
    let f ← s.objs[o]?.join
    return ({ s with refs := s.refs ++ [(some o, some f.ty)] }, {})
  | .assignRef r o => do
    let f ← s.objs[o]?.join
    let _ ← s.refs[r]?
    return ({ s with refs := s.refs.set r (some o, some f.ty) }, {})
  | .copyRef r q => do
    let v ← s.refs[q]?
    let _ ← s.refs[r]?
    return ({ s with refs := s.refs.set r v }, {})
  | .test r => do
    let v ← s.refs[r]?
    return (s, { flag := some v.1.isSome })
  | .call r a => do
    let v ← s.refs[r]?
    let o ← v.1
    let ty ← v.2
    s.invoke behave ty o a

/-- functional.hpp:211-255: A sequence of operations, and what is seen of them. -/
def run (behave : Nat → σ → A → Option (σ × Except E R)) (s : RefState σ) : List (RefOp σ A) → Option (RefState σ × List (FnObs σ R E))
  | [] => some (s, [])
  | op :: ops => do
    let (s, o) ← s.step behave op
    let (s, os) ← s.run behave ops
    return (s, o :: os)

end RefState

end Gapp.Model
