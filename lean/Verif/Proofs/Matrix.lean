import Verif.Spec.Matrix
import Mathlib.Tactic.Ring
/-!
# Matrices and tables
-/

namespace Gapp.Model

open Gapp.Spec

variable {α : Type}

/-- All rows have the length `c`. -/
def Rect (t : List (List α)) (c : Nat) : Prop := ∀ r ∈ t, r.length = c

/-- The matrix stores the table row by row. -/
structure MatRep (m : Mat α) (t : List (List α)) : Prop where
  rect : Rect t m.ncols
  data : m.data = t.flatten
  pos : t ≠ [] → 0 < m.ncols

theorem rect_cons {r : List α} {t : List (List α)} {c : Nat} (h : Rect (r :: t) c) : r.length = c ∧ Rect t c :=
  ⟨h r (List.mem_cons_self ..), fun x hx => h x (List.mem_cons_of_mem _ hx)⟩

theorem rect_length : ∀ {t : List (List α)} {c : Nat}, Rect t c → t.flatten.length = t.length * c
  | [], c, _ => by simp
  | r :: t, c, h => by
    obtain ⟨h1, h2⟩ := rect_cons h
    rw [List.flatten_cons, List.length_append, rect_length h2, h1, List.length_cons]
    ring

theorem rect_drop : ∀ {t : List (List α)} {c : Nat}, Rect t c → ∀ i, t.flatten.drop (i * c) = (t.drop i).flatten
  | [], c, _, i => by simp
  | r :: t, c, h, 0 => by simp
  | r :: t, c, h, i + 1 => by
    obtain ⟨h1, h2⟩ := rect_cons h
    rw [List.flatten_cons, List.drop_succ_cons, ← rect_drop h2 i, List.drop_append, List.drop_eq_nil_of_le, List.nil_append]
    · congr 1
      rw [h1, Nat.succ_mul]; omega
    · rw [h1, Nat.succ_mul]; omega

theorem rect_take : ∀ {t : List (List α)} {c : Nat}, Rect t c → ∀ i, t.flatten.take (i * c) = (t.take i).flatten
  | [], c, _, i => by simp
  | r :: t, c, h, 0 => by simp
  | r :: t, c, h, i + 1 => by
    obtain ⟨h1, h2⟩ := rect_cons h
    rw [List.flatten_cons, List.take_succ_cons, List.flatten_cons, ← rect_take h2 i, List.take_append, List.take_of_length_le]
    · congr 2
      rw [h1, Nat.succ_mul]; omega
    · rw [h1, Nat.succ_mul]; omega

theorem rect_get : ∀ {t : List (List α)} {c : Nat}, Rect t c → ∀ {i : Nat} {r : List α}, t[i]? = some r → ∀ {j : Nat}, j < c →
    t.flatten[i * c + j]? = r[j]?
  | [], c, _, i, r, h, j, _ => by simp at h
  | r' :: t, c, h, 0, r, hi, j, hj => by
    obtain ⟨h1, h2⟩ := rect_cons h
    simp only [List.getElem?_cons_zero, Option.some.injEq] at hi
    subst hi
    rw [List.flatten_cons, Nat.zero_mul, Nat.zero_add, List.getElem?_append_left (by omega)]
  | r' :: t, c, h, i + 1, r, hi, j, hj => by
    obtain ⟨h1, h2⟩ := rect_cons h
    rw [List.getElem?_cons_succ] at hi
    rw [← rect_get h2 hi hj, List.flatten_cons, List.getElem?_append_right (by rw [h1, Nat.succ_mul]; omega)]
    congr 1
    rw [h1, Nat.succ_mul]; omega

theorem rect_set_flatten : ∀ {t : List (List α)} {c : Nat}, Rect t c → ∀ {i : Nat} {r : List α}, t[i]? = some r → ∀ {j : Nat}, j < c →
    ∀ a, t.flatten.set (i * c + j) a = (t.set i (r.set j a)).flatten
  | [], c, _, i, r, h, j, _, a => by simp at h
  | r' :: t, c, h, 0, r, hi, j, hj, a => by
    obtain ⟨h1, h2⟩ := rect_cons h
    simp only [List.getElem?_cons_zero, Option.some.injEq] at hi
    subst hi
    rw [List.set_cons_zero, List.flatten_cons, List.flatten_cons, Nat.zero_mul, Nat.zero_add, List.set_append_left _ _ (by omega)]
  | r' :: t, c, h, i + 1, r, hi, j, hj, a => by
    obtain ⟨h1, h2⟩ := rect_cons h
    rw [List.getElem?_cons_succ] at hi
    rw [List.set_cons_succ, List.flatten_cons, List.flatten_cons, ← rect_set_flatten h2 hi hj a,
      List.set_append_right _ _ (by rw [h1, Nat.succ_mul]; omega)]
    congr 2
    rw [h1, Nat.succ_mul]; omega

theorem rect_set {t : List (List α)} {c : Nat} (h : Rect t c) (i : Nat) (r : List α) (hr : r.length = c) : Rect (t.set i r) c := by
  intro x hx
  rcases List.mem_or_eq_of_mem_set hx with hx | hx
  · exact h x hx
  · rw [hx]; exact hr

theorem rep_rows {m : Mat α} {t : List (List α)} (h : MatRep m t) : matRows m = t.length := by
  unfold matRows
  have hl := rect_length h.rect
  rw [h.data]
  cases t with
  | nil => rfl
  | cons r t =>
    have hc := h.pos (by simp)
    have : 0 < (r :: t).flatten.length := by rw [hl]; exact Nat.mul_pos (by simp) hc
    rw [if_neg (by rw [List.isEmpty_iff]; exact List.ne_nil_of_length_pos this), hl]
    exact Nat.mul_div_cancel _ hc

theorem rep_len {m : Mat α} {t : List (List α)} (h : MatRep m t) : m.data.length = t.length * m.ncols := by
  rw [h.data]; exact rect_length h.rect

theorem rep_row_len {m : Mat α} {t : List (List α)} (h : MatRep m t) {i : Nat} {r : List α} (hi : t[i]? = some r) :
    r.length = m.ncols := h.rect r (List.mem_of_getElem? hi)

theorem lt_of_get {t : List (List α)} {i : Nat} {r : List α} (hi : t[i]? = some r) : i < t.length :=
  (List.getElem?_eq_some_iff.mp hi).1

theorem index_lt {i n c j : Nat} (hi : i < n) (hj : j < c) : i * c + j < n * c := by
  have : (i + 1) * c ≤ n * c := Nat.mul_le_mul_right _ hi
  rw [Nat.succ_mul] at this
  omega

theorem matGet_rep {m : Mat α} {t : List (List α)} (h : MatRep m t) {i : Nat} {r : List α} (hi : t[i]? = some r) {j : Nat}
    (hj : j < m.ncols) : matGet m i j = r[j]? := by
  unfold matGet
  rw [if_pos ⟨by rw [rep_rows h]; exact lt_of_get hi, hj⟩, h.data]
  exact rect_get h.rect hi hj

theorem matSet_rep {m : Mat α} {t : List (List α)} (h : MatRep m t) {i : Nat} {r : List α} (hi : t[i]? = some r) {j : Nat}
    (hj : j < m.ncols) (a : α) : ∃ m', matSet m i j a = some m' ∧ m'.ncols = m.ncols ∧ MatRep m' (t.set i (r.set j a)) := by
  have hlt := lt_of_get hi
  unfold matSet
  rw [if_pos ⟨by rw [rep_rows h]; exact hlt, hj, by rw [rep_len h]; exact index_lt hlt hj⟩]
  refine ⟨_, rfl, rfl, rect_set h.rect i _ (by rw [List.length_set]; exact rep_row_len h hi), ?_, ?_⟩
  · show m.data.set _ _ = _
    rw [h.data]
    exact rect_set_flatten h.rect hi hj a
  · intro _
    exact h.pos (List.ne_nil_of_length_pos (by omega))

theorem matRow_rep {m : Mat α} {t : List (List α)} (h : MatRep m t) {i : Nat} {r : List α} (hi : t[i]? = some r) :
    matRow m i = some r := by
  have hlt := lt_of_get hi
  unfold matRow
  have : (i + 1) * m.ncols ≤ t.length * m.ncols := Nat.mul_le_mul_right _ hlt
  rw [if_pos ⟨by rw [rep_rows h]; exact hlt, by rw [rep_len h]; rw [Nat.succ_mul] at this; exact this⟩, h.data, rect_drop h.rect]
  have e : t.drop i = r :: t.drop (i + 1) := by
    rw [List.getElem?_eq_some_iff] at hi
    obtain ⟨h1, h2⟩ := hi
    rw [List.drop_eq_getElem_cons h1, h2]
  rw [e, List.flatten_cons, List.take_append, rep_row_len h hi, Nat.sub_self, List.take_zero, List.append_nil,
    List.take_of_length_le (by rw [rep_row_len h hi])]

theorem matColumnLoop_rep {m : Mat α} {t : List (List α)} (h : MatRep m t) {j : Nat} (hj : j < m.ncols) :
    ∀ (n i : Nat), i + n = t.length →
      ∃ l, matColumnLoop m j i n = some l ∧ l.length = n ∧ ∀ k < n, l[k]? = (t[i + k]?).bind (fun r => r[j]?)
  | 0, i, _ => ⟨[], rfl, rfl, by intros; omega⟩
  | n + 1, i, hn => by
    have hlt : i < t.length := by omega
    have hi : t[i]? = some t[i] := List.getElem?_eq_getElem hlt
    obtain ⟨l, e, hl, hk⟩ := matColumnLoop_rep h hj n (i + 1) (by omega)
    have hrl := rep_row_len h hi
    have hg : matGet m i j = some (t[i][j]'(by omega)) := by
      rw [matGet_rep h hi hj, List.getElem?_eq_getElem]
    refine ⟨t[i][j]'(by omega) :: l, ?_, by simp [hl], ?_⟩
    · unfold matColumnLoop
      rw [hg, e]
      rfl
    · intro k hkn
      cases k with
      | zero =>
        rw [List.getElem?_cons_zero, Nat.add_zero, hi]
        show _ = t[i][j]?
        rw [List.getElem?_eq_getElem]
      | succ k =>
        rw [List.getElem?_cons_succ, hk k (by omega)]
        congr 2; omega

theorem matColumn_rep {m : Mat α} {t : List (List α)} (h : MatRep m t) {j : Nat} (hj : j < m.ncols) :
    ∃ l, matColumn m j = some l ∧ l.length = t.length ∧ ∀ k < t.length, l[k]? = (t[k]?).bind (fun r => r[j]?) := by
  obtain ⟨l, e, hl, hk⟩ := matColumnLoop_rep h hj t.length 0 (by omega)
  refine ⟨l, ?_, hl, fun k hkn => by rw [hk k hkn, Nat.zero_add]⟩
  unfold matColumn
  rw [if_pos hj, rep_rows h]
  exact e

theorem matAssignFrom_rep : ∀ (as : List α) {m : Mat α} {t : List (List α)} (_ : MatRep m t) {i : Nat} {r : List α}
    (_ : t[i]? = some r) (j : Nat), j + as.length ≤ m.ncols →
    ∃ m', matAssignFrom m i j as = some m' ∧ m'.ncols = m.ncols ∧ MatRep m' (t.set i (r.take j ++ as ++ r.drop (j + as.length)))
  | [], m, t, h, i, r, hi, j, hj => by
    refine ⟨m, rfl, rfl, ?_⟩
    rw [List.append_nil, List.length_nil, Nat.add_zero, List.take_append_drop]
    have : t.set i r = t := by
      rw [List.getElem?_eq_some_iff] at hi
      obtain ⟨h1, h2⟩ := hi
      rw [← h2, List.set_getElem_self]
    rw [this]
    exact h
  | a :: as, m, t, h, i, r, hi, j, hj => by
    simp only [List.length_cons] at hj
    obtain ⟨m1, e1, hc1, h1⟩ := matSet_rep h hi (j := j) (by omega) a
    have hlt := lt_of_get hi
    have hrl := rep_row_len h hi
    obtain ⟨m2, e2, hc2, h2⟩ := matAssignFrom_rep as h1 (i := i) (r := r.set j a) (by rw [List.getElem?_set_self hlt]) (j + 1)
      (by rw [hc1]; omega)
    refine ⟨m2, ?_, by rw [hc2, hc1], ?_⟩
    · unfold matAssignFrom
      rw [e1]
      exact e2
    · rw [List.set_set] at h2
      have e : (r.set j a).take (j + 1) ++ as ++ (r.set j a).drop (j + 1 + as.length) =
          r.take j ++ a :: as ++ r.drop (j + (a :: as).length) := by
        rw [List.drop_set_of_lt (by omega), List.take_set, List.length_cons]
        have : (r.take (j + 1)).set j a = r.take j ++ [a] := by
          apply List.ext_getElem?
          intro k
          rw [List.getElem?_set]
          have hl1 : (r.take (j + 1)).length = j + 1 := by simp; omega
          have hl2 : (r.take j).length = j := by simp; omega
          grind
        rw [this]
        simp [Nat.add_assoc, Nat.add_comm 1]
      rw [← e]
      exact h2

theorem matAssignRow_rep {m : Mat α} {t : List (List α)} (h : MatRep m t) {i : Nat} {r : List α} (hi : t[i]? = some r)
    (row : List α) (hrow : row.length = r.length) : ∃ m', matAssignRow m i row = some m' ∧ MatRep m' (t.set i row) := by
  have hrl := rep_row_len h hi
  unfold matAssignRow
  rw [if_pos ⟨by rw [rep_rows h]; exact lt_of_get hi, by omega⟩]
  obtain ⟨m', e, _, h'⟩ := matAssignFrom_rep row h hi 0 (by omega)
  refine ⟨m', e, ?_⟩
  rw [List.take_zero, List.nil_append, Nat.zero_add, hrow, List.drop_length, List.append_nil] at h'
  exact h'

theorem set_self {t : List (List α)} {i : Nat} {r : List α} (hi : t[i]? = some r) : t.set i r = t := by
  rw [List.getElem?_eq_some_iff] at hi
  obtain ⟨h1, h2⟩ := hi
  rw [← h2, List.set_getElem_self]

theorem swap_row_step (r s : List α) (c p : Nat) (hr : r.length = c) (hs : s.length = c) (hp : p < c) (b : α) (hb : s[p]? = some b)
    (s' : List α) (hs' : s'.length = c) (htail : ∀ q, p < q → s'[q]? = s[q]?) :
    (r.set p b).take (p + 1) ++ s'.drop (p + 1) = r.take p ++ s.drop p := by
  apply List.ext_getElem?
  intro k
  have hl1 : ((r.set p b).take (p + 1)).length = p + 1 := by simp; omega
  have hl2 : (r.take p).length = p := by simp; omega
  rcases Nat.lt_trichotomy k p with hk | hk | hk
  · rw [List.getElem?_append_left (by omega), List.getElem?_append_left (by omega), List.getElem?_take, if_pos (by omega),
      List.getElem?_take, if_pos hk, List.getElem?_set, if_neg (by omega)]
  · subst hk
    rw [List.getElem?_append_left (by omega), List.getElem?_append_right (by omega), List.getElem?_take, if_pos (by omega),
      List.getElem?_set, if_pos rfl, if_pos (by omega), List.getElem?_drop, hl2, ← hb]
    congr 1; omega
  · rw [List.getElem?_append_right (by omega), List.getElem?_append_right (by omega), List.getElem?_drop, List.getElem?_drop, hl1, hl2,
      htail _ (by omega)]
    congr 1; omega

theorem matSwapLoop_rep (i k : Nat) : ∀ (n : Nat) {m : Mat α} {t : List (List α)} (_ : MatRep m t) {r s : List α}
    (_ : t[i]? = some r) (_ : t[k]? = some s), n ≤ m.ncols →
    ∃ m', matSwapLoop m i k n = some m' ∧
      MatRep m' ((t.set i (r.take (m.ncols - n) ++ s.drop (m.ncols - n))).set k (s.take (m.ncols - n) ++ r.drop (m.ncols - n)))
  | 0, m, t, h, r, s, hi, hk, _ => by
    have hr := rep_row_len h hi
    have hs := rep_row_len h hk
    refine ⟨m, rfl, ?_⟩
    rw [Nat.sub_zero, List.take_of_length_le (by omega), List.take_of_length_le (by omega), List.drop_eq_nil_of_le (by omega),
      List.drop_eq_nil_of_le (by omega), List.append_nil, List.append_nil, set_self hi, set_self hk]
    exact h
  | n + 1, m, t, h, r, s, hi, hk, hn => by
    have hr := rep_row_len h hi
    have hs := rep_row_len h hk
    have hil := lt_of_get hi
    have hkl := lt_of_get hk
    have hp : m.ncols - (n + 1) < m.ncols := by omega
    have ha : r[m.ncols - (n + 1)]? = some (r[m.ncols - (n + 1)]'(by omega)) := List.getElem?_eq_getElem (by omega)
    have hb : s[m.ncols - (n + 1)]? = some (s[m.ncols - (n + 1)]'(by omega)) := List.getElem?_eq_getElem (by omega)
    generalize hA : r[m.ncols - (n + 1)]'(by omega) = a at ha
    generalize hB : s[m.ncols - (n + 1)]'(by omega) = b at hb
    obtain ⟨m1, e1, c1, h1⟩ := matSet_rep h hi hp b
    have g1 : matGet m i (m.ncols - (n + 1)) = some a := by rw [matGet_rep h hi hp]; exact ha
    have g2 : matGet m k (m.ncols - (n + 1)) = some b := by rw [matGet_rep h hk hp]; exact hb
    have estep : ∀ m2, matSet m1 k (m.ncols - (n + 1)) a = some m2 → matSwapLoop m i k (n + 1) = matSwapLoop m2 i k n := by
      intro m2 e2
      conv => lhs; unfold matSwapLoop
      rw [g1, g2]
      show (do let m ← matSet m i _ b; let m ← matSet m k _ a; matSwapLoop m i k n) = _
      rw [e1]
      show (do let m ← matSet m1 k (m1.ncols - (n + 1)) a; matSwapLoop m i k n) = _
      rw [c1, e2]
      rfl
    by_cases hik : i = k
    · subst hik
      rw [hi] at hk
      cases hk
      have hab : a = b := by rw [ha] at hb; exact Option.some.inj hb
      subst hab
      have hra : r.set (m.ncols - (n + 1)) a = r := by
        rw [← hA, List.set_getElem_self]
      rw [hra, set_self hi] at h1
      obtain ⟨m2, e2, c2, h2⟩ := matSet_rep h1 hi (j := m.ncols - (n + 1)) (by omega) a
      rw [hra, set_self hi] at h2
      obtain ⟨m3, e3, h3⟩ := matSwapLoop_rep i i n h2 hi hi (by omega)
      refine ⟨m3, by rw [estep m2 e2]; exact e3, ?_⟩
      rw [List.take_append_drop, List.set_set, set_self hi] at h3 ⊢
      exact h3
    · have hk1 : (t.set i (r.set (m.ncols - (n + 1)) b))[k]? = some s := by
        rw [List.getElem?_set, if_neg hik]; exact hk
      obtain ⟨m2, e2, c2, h2⟩ := matSet_rep h1 hk1 (j := m.ncols - (n + 1)) (by omega) a
      have hi2 : ((t.set i (r.set (m.ncols - (n + 1)) b)).set k (s.set (m.ncols - (n + 1)) a))[i]? =
          some (r.set (m.ncols - (n + 1)) b) := by
        rw [List.getElem?_set, if_neg (Ne.symm hik), List.getElem?_set_self hil]
      have hk2 : ((t.set i (r.set (m.ncols - (n + 1)) b)).set k (s.set (m.ncols - (n + 1)) a))[k]? =
          some (s.set (m.ncols - (n + 1)) a) := by
        rw [List.getElem?_set_self (by rw [List.length_set]; exact hkl)]
      obtain ⟨m3, e3, h3⟩ := matSwapLoop_rep i k n h2 hi2 hk2 (by omega)
      refine ⟨m3, by rw [estep m2 e2]; exact e3, ?_⟩
      have ec : m2.ncols - n = m.ncols - (n + 1) + 1 := by rw [c2, c1]; omega
      rw [ec, swap_row_step r s m.ncols _ hr hs hp b hb _ (by rw [List.length_set]; exact hs)
          (fun q hq => by rw [List.getElem?_set, if_neg (by omega)]),
        swap_row_step s r m.ncols _ hs hr hp a ha _ (by rw [List.length_set]; exact hr)
          (fun q hq => by rw [List.getElem?_set, if_neg (by omega)])] at h3
      have : ∀ (x y x' y' : List α), (((t.set i x).set k y).set i x').set k y' = (t.set i x').set k y' := by
        intro x y x' y'
        rw [List.set_comm y x' (Ne.symm hik), List.set_set, List.set_set]
      rw [this] at h3
      exact h3

theorem getD_eq {t : List (List α)} {i : Nat} {r : List α} (hi : t[i]? = some r) : t.getD i [] = r := by
  rw [List.getD_eq_getElem?_getD, hi]; rfl

theorem flatten_rep (c : Nat) (a : α) : ∀ n, (List.replicate n (List.replicate c a)).flatten = List.replicate (n * c) a := by
  intro n
  rw [List.flatten_replicate_replicate]

theorem matStep_rep (dflt : α) {m : Mat α} {t : List (List α)} (h : MatRep m t) (op : MatOp α) (hpre : TablePre t op) :
    ∃ m', matStep dflt m op = some m' ∧ MatRep m' (tableStep t op) := by
  cases op with
  | ctor r c a =>
    refine ⟨_, rfl, ?_, ?_, fun _ => hpre⟩
    · intro x hx
      rw [List.eq_of_mem_replicate hx]
      exact List.length_replicate
    · exact (flatten_rep c a r).symm
  | ofRows rows =>
    cases rows with
    | nil => exact ⟨_, rfl, fun x hx => absurd hx (List.not_mem_nil), rfl, fun hn => absurd rfl hn⟩
    | cons r rs =>
      refine ⟨⟨(r :: rs).flatten, r.length⟩, ?_, ?_, rfl, fun _ => ?_⟩
      · show (if _ then _ else _) = _
        rw [if_pos]
        rw [List.all_eq_true]
        intro x hx
        rw [beq_iff_eq]
        exact (hpre x hx r (List.mem_cons_self ..)).2
      · intro x hx
        exact (hpre x hx r (List.mem_cons_self ..)).2
      · exact List.length_pos_iff.mpr (hpre r (List.mem_cons_self ..) r (List.mem_cons_self ..)).1
  | set i j a =>
    obtain ⟨r, hi, hj⟩ := hpre
    obtain ⟨m', e, _, h'⟩ := matSet_rep h hi (j := j) (by rw [← rep_row_len h hi]; exact hj) a
    refine ⟨m', e, ?_⟩
    show MatRep m' (t.set i ((t.getD i []).set j a))
    rw [getD_eq hi]
    exact h'
  | append row =>
    obtain ⟨hne, hall⟩ := hpre
    refine ⟨⟨m.data ++ row, row.length⟩, ?_, ?_, ?_, fun _ => List.length_pos_iff.mpr hne⟩
    · show (if _ then _ else _) = _
      rw [if_pos]
      rw [rep_rows h]
      cases t with
      | nil => exact Or.inr rfl
      | cons r t =>
        left
        rw [← hall r (List.mem_cons_self ..)]
        exact (rect_cons h.rect).1
    · intro x hx
      rcases List.mem_append.mp hx with hx | hx
      · exact hall x hx
      · rw [List.mem_singleton.mp hx]
    · show m.data ++ row = (t ++ [row]).flatten
      rw [h.data]; simp
  | popBack =>
    have hlen : 0 < t.length := List.length_pos_iff.mpr hpre
    refine ⟨matResize m (matRows m - 1) m.ncols dflt, ?_, ?_, ?_, ?_⟩
    · show (if _ then _ else _) = _
      rw [if_neg (by rw [rep_rows h]; omega)]
    · intro x hx
      exact h.rect x (List.dropLast_subset _ hx)
    · show m.data.take _ ++ _ = t.dropLast.flatten
      rw [rep_len h, rep_rows h, h.data, rect_take h.rect, List.dropLast_eq_take]
      have : (t.length - 1) * m.ncols - t.length * m.ncols = 0 := by
        have := Nat.mul_le_mul_right m.ncols (Nat.sub_le t.length 1)
        omega
      rw [this]
      simp
    · intro _; exact h.pos hpre
  | resize n a =>
    refine ⟨_, rfl, ?_, ?_, ?_⟩
    · show Rect (t.take n ++ List.replicate (n - t.length) (List.replicate (t.headD []).length a)) m.ncols
      intro x hx
      rcases List.mem_append.mp hx with hx | hx
      · exact h.rect x (List.mem_of_mem_take hx)
      · rw [List.eq_of_mem_replicate hx, List.length_replicate]
        cases t with
        | nil =>
          have : n - 0 ≠ 0 := by
            intro h0
            rw [List.length_nil, h0] at hx
            simp at hx
          rcases hpre with hp | hp
          · rw [List.length_nil] at hp; omega
          · exact absurd rfl hp
        | cons r t => exact (rect_cons h.rect).1
    · show m.data.take (n * m.ncols) ++ List.replicate (n * m.ncols - m.data.length) a = _
      show _ = (t.take n ++ List.replicate (n - t.length) (List.replicate (t.headD []).length a)).flatten
      rw [List.flatten_append, flatten_rep, rep_len h, h.data, rect_take h.rect]
      congr 2
      cases t with
      | nil =>
        rcases hpre with hp | hp
        · rw [List.length_nil] at hp ⊢
          have : n = 0 := by omega
          subst this; simp
        · exact absurd rfl hp
      | cons r t =>
        show n * m.ncols - (r :: t).length * m.ncols = (n - (r :: t).length) * r.length
        rw [(rect_cons h.rect).1, Nat.sub_mul]
    · intro hne
      apply h.pos
      intro h0
      subst h0
      rcases hpre with hp | hp
      · rw [List.length_nil] at hp
        apply hne
        have : n = 0 := by omega
        subst this
        rfl
      · exact absurd rfl hp
  | clear => exact ⟨_, rfl, fun x hx => absurd hx (List.not_mem_nil), rfl, fun hn => absurd rfl hn⟩
  | assignRow i row =>
    obtain ⟨r, hi, hr⟩ := hpre
    exact matAssignRow_rep h hi row hr
  | copyRow i k =>
    obtain ⟨h1, h2⟩ := hpre
    have hi : t[i]? = some t[i] := List.getElem?_eq_getElem h1
    have hk : t[k]? = some t[k] := List.getElem?_eq_getElem h2
    obtain ⟨m', e, h'⟩ := matAssignRow_rep h hi t[k] (by rw [rep_row_len h hi, rep_row_len h hk])
    refine ⟨m', ?_, ?_⟩
    · show (matRow m k).bind _ = _
      rw [matRow_rep h hk]
      exact e
    · show MatRep m' (t.set i (t.getD k []))
      rw [getD_eq hk]; exact h'
  | swapRows i k =>
    obtain ⟨h1, h2⟩ := hpre
    have hi : t[i]? = some t[i] := List.getElem?_eq_getElem h1
    have hk : t[k]? = some t[k] := List.getElem?_eq_getElem h2
    obtain ⟨m', e, h'⟩ := matSwapLoop_rep i k m.ncols h hi hk le_rfl
    rw [Nat.sub_self, List.take_zero, List.take_zero, List.drop_zero, List.drop_zero, List.nil_append, List.nil_append] at h'
    refine ⟨m', ?_, ?_⟩
    · show (if _ then _ else _) = _
      rw [if_pos ⟨by rw [rep_rows h]; exact h1, by rw [rep_rows h]; exact h2⟩]
      exact e
    · show MatRep m' ((t.set i (t.getD k [])).set k (t.getD i []))
      rw [getD_eq hk, getD_eq hi]; exact h'
  | range i k =>
    by_cases hik : k ≤ i
    · refine ⟨⟨[], 0⟩, if_pos hik, ?_, ?_, ?_⟩
      · intro x hx
        have : (t.take k).drop i = [] := by
          apply List.drop_eq_nil_of_le; simp; omega
        rw [show tableStep t (.range i k) = [] from this] at hx
        exact absurd hx (List.not_mem_nil)
      · have : (t.take k).drop i = [] := by
          apply List.drop_eq_nil_of_le; simp; omega
        rw [show tableStep t (.range i k) = [] from this]
        rfl
      · intro hne
        exfalso
        apply hne
        show (t.take k).drop i = []
        apply List.drop_eq_nil_of_le; simp; omega
    · have hkt : k ≤ t.length := hpre.resolve_left hik
      have e0 : i * m.ncols + (k - i) * m.ncols = k * m.ncols := by
        rw [← Nat.add_mul]; congr 1; omega
      refine ⟨⟨(m.data.drop (i * m.ncols)).take ((k - i) * m.ncols), m.ncols⟩, ?_, ?_, ?_, ?_⟩
      · show (if _ then _ else if _ then _ else _) = _
        rw [if_neg hik, if_pos ⟨by rw [rep_rows h]; omega, by rw [e0, rep_len h]; exact Nat.mul_le_mul_right _ hkt⟩]
      · intro x hx
        exact h.rect x (List.mem_of_mem_take (List.mem_of_mem_drop hx))
      · show (m.data.drop (i * m.ncols)).take ((k - i) * m.ncols) = ((t.take k).drop i).flatten
        have hd : Rect (t.drop i) m.ncols := fun x hx => h.rect x (List.mem_of_mem_drop hx)
        rw [h.data, rect_drop h.rect, rect_take hd, List.drop_take]
      · intro _
        exact h.pos (List.ne_nil_of_length_pos (by omega))

/-- A program. -/
def matRun (dflt : α) (m : Mat α) : List (MatOp α) → Option (Mat α)
  | [] => some m
  | op :: ops => (matStep dflt m op).bind (fun m => matRun dflt m ops)

theorem matRun_rep (dflt : α) : ∀ (ops : List (MatOp α)) {m : Mat α} {t : List (List α)}, MatRep m t → TableRunPre t ops →
    ∃ m', matRun dflt m ops = some m' ∧ MatRep m' (tableRun t ops)
  | [], m, t, h, _ => ⟨m, rfl, h⟩
  | op :: ops, m, t, h, hp => by
    obtain ⟨m1, e1, h1⟩ := matStep_rep dflt h op hp.1
    obtain ⟨m2, e2, h2⟩ := matRun_rep dflt ops h1 hp.2
    refine ⟨m2, ?_, h2⟩
    show (matStep dflt m op).bind _ = _
    rw [e1]
    exact e2

theorem rep_empty_mat : MatRep (⟨[], 0⟩ : Mat α) [] :=
  ⟨fun x hx => absurd hx (List.not_mem_nil), rfl, fun hn => absurd rfl hn⟩

end Gapp.Model
