/-!
# Scope guards

Source: `/repo/src/utility/math.hpp:72-102` (`ScopedTolerances`), `/repo/src/utility/scope_exit.hpp`.

A program is a tree of statements over a store of variables. A statement ends normally or with an exception; the destructor of a guard runs in both cases, which is
the rule of the language.
-/

namespace Gapp.Model

/-- left through the end of the scope of the object of scope_exit.hpp:14, 40: The two ways to leave a statement. -/
inductive Exit where
  | normal
  | exception
  deriving DecidableEq

/-- scope_exit.hpp:14-60, math.hpp:72-100: Programs that use scope guards. `σ` is the state of the program, `V` the type of the variables that are guarded, with the names `N`. -/
inductive GuardProg (σ : Type) where
  /-- Any code that uses no guards. -/
  | code (run : σ → σ × Exit)
  | seq (first second : GuardProg σ)
  /-- `try { body } catch (...) { handler }` -/
  | tryCatch (body handler : GuardProg σ)
  /-- `if`, depending on the state. -/
  | ite (cond : σ → Bool) (a b : GuardProg σ)
  /-- A block whose first declaration is a guard: `enter` is the constructor, which returns the members of the guard, `leave` is the destructor. -/
  | scope {M : Type} (enter : σ → σ × M) (leave : M → σ → σ) (body : GuardProg σ)

/-- scope_exit.hpp:14-60, math.hpp:72-100: Executing a program. -/
def GuardProg.exec {σ : Type} : GuardProg σ → σ → σ × Exit
  | code run, s => run s
  | seq a b, s =>
    match a.exec s with
    | (s', .normal) => b.exec s'
    | (s', .exception) => (s', .exception)
  | tryCatch a b, s =>
    match a.exec s with
    | (s', .normal) => (s', .normal)
    | (s', .exception) => b.exec s'
  | ite c a b, s => if c s then a.exec s else b.exec s
  | scope enter leave body, s =>
    let r := body.exec (enter s).1
    (leave (enter s).2 r.1, r.2)

/-- scope_exit.hpp:40-60, math.hpp:72-100: A store: the values of the variables (the global tolerances, the members of the algorithm), and the rest of the state. -/
structure Store (N V ρ : Type) where
  vars : N → V
  rest : ρ

section
variable {N V ρ : Type} [DecidableEq N]

/-- scope_exit.hpp:54: Assignment to a variable. -/
def Store.set (s : Store N V ρ) (n : N) (v : V) : Store N V ρ := { s with vars := fun k => if k = n then v else s.vars k }

/-- `restore_on_exit` (scope_exit.hpp:40-59) on the given variables: the constructor copies their values, the destructor assigns the copies back, in order. -/
def restoreOnExit (names : List N) (body : GuardProg (Store N V ρ)) : GuardProg (Store N V ρ) :=
  .scope (fun s => (s, names.map s.vars))
    (fun old s => (names.zip old).foldl (fun s p => s.set p.1 p.2) s) body

/-- `ScopedTolerances` (math.hpp:72-102): the constructor exchanges both of the tolerances (82-85), the destructor writes the old ones back (88-92). -/
def scopedTolerances (absName relName : N) (abs rel : V) (body : GuardProg (Store N V ρ)) : GuardProg (Store N V ρ) :=
  .scope (fun s =>
      let oldAbs := s.vars absName
      let s := s.set absName abs
      let oldRel := s.vars relName
      let s := s.set relName rel
      (s, (oldAbs, oldRel)))
    (fun old s => (s.set absName old.1).set relName old.2) body

end

/-- `scope_exit` (scope_exit.hpp:13-36): the function is called by the destructor, unless `release()` was called in the scope, which `released` reads from the state. -/
def scopeExit {σ : Type} (onExit : σ → σ) (released : σ → Bool) (body : GuardProg σ) : GuardProg σ :=
  .scope (M := Unit) (fun s => (s, ())) (fun _ s => if released s then s else onExit s) body

end Gapp.Model
