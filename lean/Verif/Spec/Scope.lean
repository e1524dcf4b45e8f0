import Verif.Model.Scope
/-! # Specification of the scope guards -/

namespace Gapp.Spec
open Gapp.Model

/-- Programs which write the given variables only by opening scopes: all of the other code leaves them alone. -/
inductive OnlyScoped {N V ρ : Type} [DecidableEq N] (guarded : N → Prop) : GuardProg (Store N V ρ) → Prop
  | code (run) (h : ∀ s n, guarded n → (run s).1.vars n = s.vars n) : OnlyScoped guarded (.code run)
  | seq {a b} : OnlyScoped guarded a → OnlyScoped guarded b → OnlyScoped guarded (.seq a b)
  | tryCatch {a b} : OnlyScoped guarded a → OnlyScoped guarded b → OnlyScoped guarded (.tryCatch a b)
  | ite {c a b} : OnlyScoped guarded a → OnlyScoped guarded b → OnlyScoped guarded (.ite c a b)
  | tolerances {absName relName abs rel body} (h : absName ≠ relName) : OnlyScoped guarded body → OnlyScoped guarded (scopedTolerances absName relName abs rel body)
  | restore {names body} : OnlyScoped guarded body → OnlyScoped guarded (restoreOnExit names body)

end Gapp.Spec
