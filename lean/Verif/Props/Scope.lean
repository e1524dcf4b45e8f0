import Verif.Spec.Scope
/-!
# C50: scoped settings
-/

namespace Gapp.Props
open Gapp.Model Gapp.Spec

section
variable {N V ρ : Type} [DecidableEq N]

theorem set_vars (s : Store N V ρ) (n k : N) (v : V) : (s.set n v).vars k = if k = n then v else s.vars k := rfl

/-- C50: in the scope of a `ScopedTolerances` the new tolerances are in force, and after it, whatever the scope contains (further scopes, direct assignments, exceptions that leave it), the
tolerances have the values from before. Nothing else is changed by the guard, and an exception goes on. -/
theorem C50_scoped_tolerances (absName relName : N) (hne : absName ≠ relName) (abs rel : V) (body : GuardProg (Store N V ρ)) (s : Store N V ρ) :
    ∃ s1 s2 e, -- the states at the beginning and at the end of the scope
      s1.vars absName = abs ∧ s1.vars relName = rel ∧ s1.rest = s.rest ∧ (∀ n, n ≠ absName → n ≠ relName → s1.vars n = s.vars n) ∧
      body.exec s1 = (s2, e) ∧
      ∃ s3, (scopedTolerances absName relName abs rel body).exec s = (s3, e) ∧
        s3.vars absName = s.vars absName ∧ s3.vars relName = s.vars relName ∧ s3.rest = s2.rest ∧
        ∀ n, n ≠ absName → n ≠ relName → s3.vars n = s2.vars n := by
  refine ⟨(s.set absName abs).set relName rel, (body.exec ((s.set absName abs).set relName rel)).1, (body.exec ((s.set absName abs).set relName rel)).2, ?_, ?_, rfl, ?_, rfl,
    ?_⟩
  · simp [set_vars, hne]
  · simp [set_vars]
  · intro n h1 h2; simp [set_vars, h1, h2]
  · refine ⟨_, rfl, ?_, ?_, rfl, ?_⟩
    · simp [set_vars, hne]
    · simp [set_vars, Ne.symm hne]
    · intro n h1 h2; simp [set_vars, h1, h2]

theorem foldl_set (names : List N) (s0 : Store N V ρ) : ∀ s : Store N V ρ,
    (∀ n ∈ names, ((names.zip (names.map s0.vars)).foldl (fun s p => s.set p.1 p.2) s).vars n = s0.vars n) ∧
    (∀ n, n ∉ names → ((names.zip (names.map s0.vars)).foldl (fun s p => s.set p.1 p.2) s).vars n = s.vars n) ∧
    ((names.zip (names.map s0.vars)).foldl (fun s p => s.set p.1 p.2) s).rest = s.rest := by
  induction names with
  | nil => intro s; simp
  | cons m names ih =>
    intro s
    simp only [List.map_cons, List.zip_cons_cons, List.foldl_cons]
    obtain ⟨h1, h2, h3⟩ := ih (s.set m (s0.vars m))
    refine ⟨?_, ?_, ?_⟩
    · intro n hn
      by_cases hmem : n ∈ names
      · exact h1 n hmem
      · rw [h2 n hmem, set_vars]
        rcases List.mem_cons.mp hn with rfl | h
        · simp
        · exact absurd h hmem
    · intro n hn
      rw [List.mem_cons, not_or] at hn
      rw [h2 n hn.2, set_vars, if_neg hn.1]
    · rw [h3]; rfl

/-- C50: `restore_on_exit` gives the variables the values they had at its construction, on every exit from the scope; it changes nothing else. -/
theorem C50_restore_on_exit (names : List N) (body : GuardProg (Store N V ρ)) (s : Store N V ρ) :
    ∃ s3, (restoreOnExit names body).exec s = (s3, (body.exec s).2) ∧ (∀ n ∈ names, s3.vars n = s.vars n) ∧
      (∀ n, n ∉ names → s3.vars n = (body.exec s).1.vars n) ∧ s3.rest = (body.exec s).1.rest := by
  obtain ⟨h1, h2, h3⟩ := foldl_set names s (body.exec s).1
  exact ⟨_, rfl, h1, h2, h3⟩

/-- C50: a program that touches the settings only by opening scopes leaves them as they were, however the scopes are nested and whether or not it ends with an exception. -/
theorem C50_nested (guarded : N → Prop) (p : GuardProg (Store N V ρ)) (hp : OnlyScoped guarded p) :
    ∀ s : Store N V ρ, ∀ n, guarded n → (p.exec s).1.vars n = s.vars n := by
  induction hp with
  | code run h => intro s n hn; exact h s n hn
  | @seq a b _ _ iha ihb =>
    intro s n hn
    have ha := iha s n hn
    simp only [GuardProg.exec]
    match h : a.exec s with
    | (s', .normal) =>
      rw [h] at ha
      dsimp only
      rw [ihb s' n hn]; exact ha
    | (s', .exception) => rw [h] at ha; exact ha
  | @tryCatch a b _ _ iha ihb =>
    intro s n hn
    have ha := iha s n hn
    simp only [GuardProg.exec]
    match h : a.exec s with
    | (s', .normal) => rw [h] at ha; exact ha
    | (s', .exception) =>
      rw [h] at ha
      dsimp only
      rw [ihb s' n hn]; exact ha
  | @ite c a b _ _ iha ihb =>
    intro s n hn
    simp only [GuardProg.exec]
    split
    · exact iha s n hn
    · exact ihb s n hn
  | @tolerances absName relName abs rel body hne _ ih =>
    intro s n hn
    simp only [GuardProg.exec, scopedTolerances, set_vars]
    by_cases h2 : n = relName
    · subst h2
      simp [Ne.symm hne]
    · by_cases h1 : n = absName
      · simp [h1, hne]
      · rw [if_neg h2, if_neg h1, ih _ n hn, set_vars, set_vars, if_neg h2, if_neg h1]
  | @restore names body _ ih =>
    intro s n hn
    obtain ⟨h1, h2, h3⟩ := foldl_set names s (body.exec s).1
    simp only [GuardProg.exec, restoreOnExit]
    by_cases h : n ∈ names
    · exact h1 n h
    · rw [h2 n h]; exact ih s n hn

end

/-- C50: `scope_exit` calls its function on every exit from the scope unless it was released, exactly once. -/
theorem C50_scope_exit {σ : Type} (onExit : σ → σ) (released : σ → Bool) (body : GuardProg σ) (s : σ) :
    (scopeExit onExit released body).exec s =
      (if released (body.exec s).1 then (body.exec s).1 else onExit (body.exec s).1, (body.exec s).2) := rfl

/-- A program that changes the tolerances in two nested scopes, the inner of which throws. -/
def exampleScopes : GuardProg (Store Bool Nat Nat) :=
  .tryCatch (scopedTolerances false true 1 2 (.seq (.code (fun s => ({ s with rest := s.vars false }, .normal)))
    (scopedTolerances false true 3 4 (.code (fun s => ({ s with rest := s.rest * 10 + s.vars false }, .exception)))))) (.code (fun s => (s, .normal)))

example : let r := exampleScopes.exec ⟨fun _ => 7, 0⟩
    r.2 = .normal ∧ r.1.vars false = 7 ∧ r.1.vars true = 7 ∧ r.1.rest = 13 := by decide
example : OnlyScoped (fun _ => True) exampleScopes :=
  .tryCatch (.tolerances (by decide) (.seq (.code _ (fun _ _ _ => rfl)) (.tolerances (by decide) (.code _ (fun _ _ _ => rfl))))) (.code _ (fun _ _ _ => rfl))

end Gapp.Props
