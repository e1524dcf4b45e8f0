import Mathlib.Tactic.NormNum
import Verif.Model.DoubleMulti
import Verif.Props.DoubleSelectMethods
/-! # The order of the values of the type `double` that are numbers -/

namespace Gapp.Model
open Gapp.Spec Gapp.Props Dbl

/-- The place of a number in the order of the numbers and the infinities. -/
def dblKey : Dbl → WithBot (WithTop ℚ)
  | nan => ⊥
  | ninf => ⊥
  | fin x => ((x : WithTop ℚ) : WithBot (WithTop ℚ))
  | pinf => ((⊤ : WithTop ℚ) : WithBot (WithTop ℚ))

theorem lt_iff_key {a b : Dbl} (ha : a ≠ nan) (hb : b ≠ nan) : Dbl.lt a b = true ↔ dblKey a < dblKey b := by
  cases a <;> cases b <;> simp_all [Dbl.lt, dblKey]
  exact WithBot.coe_lt_coe.2 (WithTop.coe_lt_top _)

theorem le_iff_key {a b : Dbl} (ha : a ≠ nan) (hb : b ≠ nan) : Dbl.le a b = true ↔ dblKey a ≤ dblKey b := by
  cases a <;> cases b <;> simp_all [Dbl.le, dblKey]

theorem maxLoop_map {V W : Type} [LT V] [DecidableLT V] [LT W] [DecidableLT W] (f : V → W) (p : V → Prop) (h : ∀ a b, p a → p b → (f a < f b ↔ a < b)) :
    ∀ (l : List V) (m : Nat) (v : V) (first : Nat), p v → (∀ x ∈ l, p x) → maxLoop m (f v) first (l.map f) = maxLoop m v first l
  | [], _, _, _, _, _ => rfl
  | x :: l, m, v, first, hv, hl => by
      have hx := hl x (by simp)
      simp only [List.map_cons, maxLoop, h v x hv hx]
      split
      · exact maxLoop_map f p h l m v _ hv (fun y hy => hl y (by simp [hy]))
      · exact maxLoop_map f p h l first x _ hx (fun y hy => hl y (by simp [hy]))

theorem maxElement_map {V W : Type} [LT V] [DecidableLT V] [LT W] [DecidableLT W] (f : V → W) (p : V → Prop) (h : ∀ a b, p a → p b → (f a < f b ↔ a < b)) (l : List V)
    (hl : ∀ x ∈ l, p x) : maxElement (l.map f) = maxElement l := by
  cases l with
  | nil => rfl
  | cons x xs => exact maxLoop_map f p h xs 0 x 1 (hl x (by simp)) (fun y hy => hl y (by simp [hy]))

/-- The number of the elements that are less. -/
def dblRankIn (l : List Dbl) (x : Dbl) : ℚ := (l.countP (fun y => Dbl.lt y x) : ℕ)

theorem dblRankIn_lt (l : List Dbl) (hl : ∀ x ∈ l, x ≠ nan) {a b : Dbl} (ha : a ∈ l) (hb : b ∈ l) : dblRankIn l a < dblRankIn l b ↔ Dbl.lt a b = true := by
  unfold dblRankIn
  rw [Nat.cast_lt]
  have mono : ∀ c d, c ∈ l → d ∈ l → dblKey c ≤ dblKey d → l.countP (fun y => Dbl.lt y c) ≤ l.countP (fun y => Dbl.lt y d) := by
    intro c d hc hd h
    apply List.countP_mono_left
    intro y hy hlt
    rw [lt_iff_key (hl y hy) (hl c hc)] at hlt
    rw [lt_iff_key (hl y hy) (hl d hd)]
    exact lt_of_lt_of_le hlt h
  constructor
  · intro h
    rw [lt_iff_key (hl a ha) (hl b hb)]
    by_contra hn
    exact absurd (mono b a hb ha (not_lt.mp hn)) (by omega)
  · intro h
    have hk := (lt_iff_key (hl a ha) (hl b hb)).mp h
    obtain ⟨p, q, rfl⟩ := List.append_of_mem ha
    have haa : Dbl.lt a a = false := by
      cases a <;> simp [Dbl.lt]
    have hmono : ∀ r : List Dbl, (∀ x ∈ r, x ≠ nan) → r.countP (fun y => Dbl.lt y a) ≤ r.countP (fun y => Dbl.lt y b) := by
      intro r hr
      apply List.countP_mono_left
      intro y hy hlt
      rw [lt_iff_key (hr y hy) (hl a ha)] at hlt
      rw [lt_iff_key (hr y hy) (hl b hb)]
      exact lt_trans hlt hk
    have h1 := hmono p (fun x hx => hl x (by simp [hx]))
    have h2 := hmono q (fun x hx => hl x (by simp [hx]))
    rw [List.countP_append, List.countP_append, List.countP_cons_of_neg (by rw [haa]; simp), List.countP_cons_of_pos (by exact h)]
    omega

/-- A sort of the numbers sorts their ranks. -/
theorem argsort_rank (l : List Dbl) (hl : ∀ x ∈ l, x ≠ nan) (indices : List ℕ) (h : IsArgsortOf false Dbl.lt l indices) :
    IsArgsortOf false (fun a b => decide (a < b)) (l.map (dblRankIn l)) indices := by
  unfold IsArgsortOf at h ⊢
  simp only [Bool.false_eq_true, if_false] at h ⊢
  refine ⟨by simpa using h.1, h.2.imp ?_⟩
  intro a b hab
  unfold compareAt at hab ⊢
  rw [List.getElem?_map, List.getElem?_map]
  rcases hb : l[b]? with _ | x <;> rcases ha : l[a]? with _ | y <;> simp only [ha, hb, Option.map_none, Option.map_some] at hab ⊢
  rw [decide_eq_false_iff_not, dblRankIn_lt l hl (List.mem_of_getElem? hb) (List.mem_of_getElem? ha), hab]
  simp

end Gapp.Model
