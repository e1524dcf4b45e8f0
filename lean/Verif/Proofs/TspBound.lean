import Mathlib.Analysis.SpecialFunctions.Pow.Real
import Mathlib.Tactic.Linarith
import Mathlib.Tactic.Ring
import Mathlib.Tactic.NormNum
import Verif.Model.Problems
import Verif.Model.TspData
import Verif.Spec.Problems
import Verif.Proofs.Problems

/-!
Bounds of the length of all tours through given cities (for C75). A lower bound is the weight of a tree of clusters for
distances that are reduced by a price per city (the bound of Held and Karp); the prices and the tree are data, and only their
validity is proved and checked.
-/

namespace Gapp.Proofs.TspBound

open Gapp.Model Gapp.Spec

/-- A tree of clusters of cities: the leaves are cities with their coordinates and prices, and the two clusters of a node
are at least `t` apart. -/
inductive TspTree where
  | leaf (i : Nat) (x y p : Int)
  | node (t : Int) (l r : TspTree)

/-- A city with its coordinates and price. -/
structure TspLeaf where
  i : Nat
  x : Int
  y : Int
  p : Int

def TspTree.leaves : TspTree → List TspLeaf
  | .leaf i x y p => [⟨i, x, y, p⟩]
  | .node _ l r => l.leaves ++ r.leaves

def TspTree.weight : TspTree → Int
  | .leaf .. => 0
  | .node t l r => t + l.weight + r.weight

def TspTree.topLe (t : Int) : TspTree → Bool
  | .leaf .. => true
  | .node t' _ _ => decide (t' ≤ t)

/-- The scaled distance of the two cities minus their prices is at least `t`. -/
def farApart (s t : Int) (a b : TspLeaf) : Bool :=
  let c := t + a.p + b.p
  let dx := a.x - b.x
  let dy := a.y - b.y
  decide (c ≤ 0) || decide (c * c ≤ s * s * (dx * dx + dy * dy))

def TspTree.valid (s : Int) : TspTree → Bool
  | .leaf .. => true
  | .node t l r => l.topLe t && r.topLe t && l.leaves.all (fun a => r.leaves.all (farApart s t a)) && l.valid s && r.valid s

/-- The same tree with natural numbers, which the kernel compares faster: `k` is added to the prices and to `t`. -/
inductive NatTree where
  | leaf (i x y q : Nat)
  | node (t : Nat) (l r : NatTree)

structure NatLeaf where
  i : Nat
  x : Nat
  y : Nat
  q : Nat

def NatTree.leaves : NatTree → List NatLeaf
  | .leaf i x y q => [⟨i, x, y, q⟩]
  | .node _ l r => l.leaves ++ r.leaves

def NatTree.decode (k : Nat) : NatTree → TspTree
  | .leaf i x y q => .leaf i x y ((q : Int) - k)
  | .node t l r => .node ((t : Int) - k) (l.decode k) (r.decode k)

def NatLeaf.decode (k : Nat) (a : NatLeaf) : TspLeaf := ⟨a.i, a.x, a.y, (a.q : Int) - k⟩

def NatTree.topLe (t : Nat) : NatTree → Bool
  | .leaf .. => true
  | .node t' _ _ => Nat.ble t' t

def natFar (ss k3 ta : Nat) (a b : NatLeaf) : Bool :=
  Nat.ble (Nat.pow (Nat.sub (Nat.add ta b.q) k3) 2)
    (Nat.mul ss (Nat.add (Nat.pow (Nat.add (Nat.sub a.x b.x) (Nat.sub b.x a.x)) 2) (Nat.pow (Nat.add (Nat.sub a.y b.y) (Nat.sub b.y a.y)) 2)))

def NatTree.valid (ss k3 : Nat) : NatTree → Bool
  | .leaf .. => true
  | .node t l r => l.topLe t && r.topLe t && l.leaves.all (fun a => r.leaves.all (natFar ss k3 (Nat.add t a.q) a)) && l.valid ss k3 && r.valid ss k3

theorem NatTree.decode_leaves (k : Nat) : ∀ T : NatTree, (T.decode k).leaves = T.leaves.map (NatLeaf.decode k)
  | .leaf .. => rfl
  | .node _ l r => by
    simp only [NatTree.decode, TspTree.leaves, NatTree.leaves, List.map_append, NatTree.decode_leaves k l, NatTree.decode_leaves k r]

theorem absDiff_sq (a b : Nat) : (((a - b + (b - a)) ^ 2 : Nat) : Int) = ((a : Int) - b) * (a - b) := by
  rcases Nat.le_total a b with h | h
  · rw [Nat.sub_eq_zero_of_le h, Nat.zero_add, Nat.cast_pow, Nat.cast_sub h]
    ring
  · rw [Nat.sub_eq_zero_of_le h, Nat.add_zero, Nat.cast_pow, Nat.cast_sub h]
    ring

theorem natFar_far (s k t : Nat) (a b : NatLeaf) (h : natFar (s * s) (3 * k) (Nat.add t a.q) a b = true) :
    farApart s ((t : Int) - k) (a.decode k) (b.decode k) = true := by
  have h := Nat.le_of_ble_eq_true h
  change (t + a.q + b.q - 3 * k) ^ 2 ≤ s * s * ((a.x - b.x + (b.x - a.x)) ^ 2 + (a.y - b.y + (b.y - a.y)) ^ 2) at h
  unfold farApart
  simp only [NatLeaf.decode, Bool.or_eq_true]
  by_cases hc : t + a.q + b.q ≤ 3 * k
  · left
    apply decide_eq_true
    omega
  · right
    apply decide_eq_true
    have h' : (((t + a.q + b.q - 3 * k) ^ 2 : Nat) : Int) ≤
        ((s * s * ((a.x - b.x + (b.x - a.x)) ^ 2 + (a.y - b.y + (b.y - a.y)) ^ 2) : Nat) : Int) := by exact_mod_cast h
    rw [Nat.cast_mul, Nat.cast_add, absDiff_sq, absDiff_sq, Nat.cast_mul, Nat.cast_pow, Nat.cast_sub (by omega)] at h'
    push_cast at h'
    refine le_trans (le_of_eq ?_) h'
    ring

theorem NatTree.decode_valid (s k : Nat) : ∀ T : NatTree, T.valid (s * s) (3 * k) = true → (T.decode k).valid s = true
  | .leaf .., _ => rfl
  | .node t l r, h => by
    simp only [NatTree.valid, Bool.and_eq_true, List.all_eq_true] at h
    obtain ⟨⟨⟨⟨h1, h2⟩, h3⟩, h4⟩, h5⟩ := h
    have ht : ∀ S : NatTree, S.topLe t = true → (S.decode k).topLe ((t : Int) - k) = true := by
      intro S hS
      cases S with
      | leaf => rfl
      | node t' a b =>
        have := Nat.le_of_ble_eq_true hS
        simp only [NatTree.decode, TspTree.topLe, decide_eq_true_eq]
        omega
    simp only [NatTree.decode, TspTree.valid, Bool.and_eq_true, List.all_eq_true, NatTree.decode_leaves]
    refine ⟨⟨⟨⟨ht l h1, ht r h2⟩, ?_⟩, NatTree.decode_valid s k l h4⟩, NatTree.decode_valid s k r h5⟩
    intro a ha b hb
    obtain ⟨a', ha', rfl⟩ := List.mem_map.mp ha
    obtain ⟨b', hb', rfl⟩ := List.mem_map.mp hb
    exact natFar_far s k t a' b' (h3 a' ha' b' hb')

/-! ## Trees and paths -/

section Path

variable (c : Nat → Nat → ℝ)

/-- The steps of a path. -/
def steps (p : List Nat) : List (Nat × Nat) := p.zip p.tail

/-- The steps with both ends in `L`. -/
def inside (es : List (Nat × Nat)) (L : List Nat) : List (Nat × Nat) :=
  es.filter (fun e => decide (e.1 ∈ L) && decide (e.2 ∈ L))

def total (es : List (Nat × Nat)) : ℝ := (es.map (fun e => c e.1 e.2)).sum

theorem steps_cons_cons (a b : Nat) (p : List Nat) : steps (a :: b :: p) = (a, b) :: steps (b :: p) := rfl

theorem inside_steps_le (L : List Nat) : ∀ p : List Nat,
    (inside (steps p) L).length ≤ (p.filter (fun x => decide (x ∈ L))).length ∧
      (∀ a q, p = a :: q → a ∈ L → (inside (steps p) L).length + 1 ≤ (p.filter (fun x => decide (x ∈ L))).length) ∧
      ((p.filter (fun x => decide (x ∈ L))) ≠ [] → (inside (steps p) L).length + 1 ≤ (p.filter (fun x => decide (x ∈ L))).length)
  | [] => by simp [steps, inside]
  | [a] => by
    by_cases h : a ∈ L <;> simp [steps, inside, h]
  | a :: b :: p => by
    obtain ⟨i1, i2, i3⟩ := inside_steps_le L (b :: p)
    rw [steps_cons_cons]
    have i2' := i2 b p rfl
    by_cases ha : a ∈ L
    · have e2 : ((a :: b :: p).filter (fun x => decide (x ∈ L))).length = ((b :: p).filter (fun x => decide (x ∈ L))).length + 1 := by
        simp [ha]
      have key : (inside ((a, b) :: steps (b :: p)) L).length + 1 ≤ ((a :: b :: p).filter (fun x => decide (x ∈ L))).length := by
        rw [e2]
        by_cases hb : b ∈ L
        · have : inside ((a, b) :: steps (b :: p)) L = (a, b) :: inside (steps (b :: p)) L := by
            simp [inside, ha, hb]
          rw [this, List.length_cons]
          have := i2' hb
          omega
        · have : inside ((a, b) :: steps (b :: p)) L = inside (steps (b :: p)) L := by
            simp [inside, hb]
          rw [this]
          omega
      exact ⟨by omega, fun _ _ _ _ => key, fun _ => key⟩
    · have e1 : inside ((a, b) :: steps (b :: p)) L = inside (steps (b :: p)) L := by
        simp [inside, ha]
      have e2 : (a :: b :: p).filter (fun x => decide (x ∈ L)) = (b :: p).filter (fun x => decide (x ∈ L)) := by
        simp [ha]
      rw [e1, e2]
      refine ⟨i1, ?_, i3⟩
      intro a' q h h'
      cases h
      exact absurd h' ha

theorem inside_lt {p L : List Nat} (hp : p.Nodup) (hL : L ≠ []) : (inside (steps p) L).length + 1 ≤ L.length := by
  obtain ⟨h1, _, h3⟩ := inside_steps_le L p
  have hs : (p.filter (fun x => decide (x ∈ L))).length ≤ L.length := by
    apply List.Subperm.length_le
    apply List.Nodup.subperm (hp.filter _)
    intro x hx
    have := (List.mem_filter.mp hx).2
    simpa using this
  by_cases h : p.filter (fun x => decide (x ∈ L)) = []
  · rw [h] at h1
    have := List.length_pos_of_ne_nil hL
    simp only [List.length_nil, Nat.le_zero_eq] at h1
    omega
  · have := h3 h
    omega

/-- The steps between two sets of cities are long. -/
theorem total_split {L R : List Nat} (hd : ∀ x ∈ L, x ∉ R) (t : ℝ) (hc : ∀ i ∈ L, ∀ j ∈ R, t ≤ c i j ∧ t ≤ c j i) :
    ∀ es : List (Nat × Nat), total c (inside es L) + total c (inside es R) +
      t * ((inside es (L ++ R)).length - (inside es L).length - (inside es R).length) ≤ total c (inside es (L ++ R))
  | [] => by simp [inside, total]
  | (a, b) :: es => by
    have ih := total_split hd t hc es
    have hcons : ∀ M : List Nat, inside ((a, b) :: es) M =
        if decide (a ∈ M) && decide (b ∈ M) then (a, b) :: inside es M else inside es M := by
      intro M
      unfold inside
      rw [List.filter_cons]
    have ht : ∀ es, total c ((a, b) :: es) = c a b + total c es := fun es => by simp [total]
    rw [hcons L, hcons R, hcons (L ++ R)]
    by_cases haL : a ∈ L
    · have haR := hd a haL
      by_cases hbL : b ∈ L
      · have hbR := hd b hbL
        simp only [haL, haR, hbL, hbR, List.mem_append, true_or, or_false, decide_true, decide_false, Bool.and_true, Bool.and_false,
          if_true, Bool.false_eq_true, if_false, ht, List.length_cons, Nat.cast_add, Nat.cast_one]
        linarith
      · by_cases hbR : b ∈ R
        · have := (hc a haL b hbR).1
          simp only [haL, haR, hbL, hbR, List.mem_append, true_or, or_true, decide_true, decide_false, Bool.and_true, Bool.and_false,
            Bool.false_and, if_true, Bool.false_eq_true, if_false, ht, List.length_cons, Nat.cast_add, Nat.cast_one]
          linarith
        · simp only [haL, haR, hbL, hbR, List.mem_append, true_or, or_false, decide_true, decide_false, Bool.and_true, Bool.and_false,
            Bool.false_eq_true, if_false]
          exact ih
    · by_cases haR : a ∈ R
      · by_cases hbL : b ∈ L
        · have hbR := hd b hbL
          have := (hc b hbL a haR).2
          simp only [haL, haR, hbL, hbR, List.mem_append, true_or, or_true, decide_true, decide_false, Bool.and_true, Bool.and_false,
            Bool.false_and, if_true, Bool.false_eq_true, if_false, ht, List.length_cons, Nat.cast_add, Nat.cast_one]
          linarith
        · by_cases hbR : b ∈ R
          · simp only [haL, haR, hbL, hbR, List.mem_append, or_true, decide_true, decide_false, Bool.and_true, Bool.and_false,
              if_true, Bool.false_eq_true, if_false, ht, List.length_cons, Nat.cast_add, Nat.cast_one]
            linarith
          · simp only [haL, haR, hbL, hbR, List.mem_append, or_true, or_false, decide_true, decide_false, Bool.and_true, Bool.and_false,
              Bool.false_eq_true, if_false]
            exact ih
      · simp only [haL, haR, List.mem_append, or_false, decide_false, Bool.false_and, Bool.false_eq_true, if_false]
        exact ih

/-- The numbers of the cities of a tree. -/
def TspTree.cities (T : TspTree) : List Nat := T.leaves.map TspLeaf.i

/-- The two clusters of every node are apart. -/
def TspTree.Apart : TspTree → Prop
  | .leaf .. => True
  | .node t l r => l.topLe t = true ∧ r.topLe t = true ∧ (∀ i ∈ l.cities, ∀ j ∈ r.cities, (t : ℝ) ≤ c i j ∧ (t : ℝ) ≤ c j i) ∧
    l.Apart ∧ r.Apart

def TspTree.top : TspTree → Int
  | .leaf .. => 0
  | .node t _ _ => t

theorem TspTree.cities_ne_nil : ∀ T : TspTree, T.cities ≠ []
  | .leaf .. => by simp [TspTree.cities, TspTree.leaves]
  | .node _ l r => by
    have := TspTree.cities_ne_nil l
    simp only [TspTree.cities, TspTree.leaves, List.map_append] at this ⊢
    exact List.append_ne_nil_of_left_ne_nil this _

theorem TspTree.cities_node (t : Int) (l r : TspTree) : (TspTree.node t l r).cities = l.cities ++ r.cities := by
  simp [TspTree.cities, TspTree.leaves]

theorem tree_bound {p : List Nat} (hp : p.Nodup) : ∀ T : TspTree, T.Apart c → T.cities.Nodup →
    (T.weight : ℝ) - ((T.cities.length : ℝ) - 1 - (inside (steps p) T.cities).length) * T.top ≤ total c (inside (steps p) T.cities)
  | .leaf i x y q, _, _ => by
    have h := inside_lt hp (TspTree.cities_ne_nil (.leaf i x y q))
    have e : inside (steps p) (TspTree.leaf i x y q).cities = [] := by
      apply List.eq_nil_of_length_eq_zero
      simp only [TspTree.cities, TspTree.leaves, List.map_cons, List.map_nil, List.length_cons, List.length_nil] at h ⊢
      omega
    rw [e]
    simp [TspTree.weight, TspTree.top, total]
  | .node t l r, ⟨hl, hr, hc, al, ar⟩, hn => by
    rw [TspTree.cities_node] at hn ⊢
    have bl := tree_bound hp l al (List.nodup_append.mp hn).1
    have br := tree_bound hp r ar (List.nodup_append.mp hn).2.1
    have hd : ∀ x ∈ l.cities, x ∉ r.cities := fun x hx hx' => (List.nodup_append.mp hn).2.2 x hx x hx' rfl
    have hs := total_split c hd t hc (steps p)
    have il := inside_lt hp (TspTree.cities_ne_nil l)
    have ir := inside_lt hp (TspTree.cities_ne_nil r)
    have key : ∀ S : TspTree, S.topLe t = true → (inside (steps p) S.cities).length + 1 ≤ S.cities.length →
        ((S.cities.length : ℝ) - 1 - (inside (steps p) S.cities).length) * S.top ≤
          ((S.cities.length : ℝ) - 1 - (inside (steps p) S.cities).length) * t := by
      intro S hS hi
      cases S with
      | leaf i x y q =>
        have : (inside (steps p) (TspTree.leaf i x y q).cities).length = 0 := by
          simp only [TspTree.cities, TspTree.leaves, List.map_cons, List.map_nil, List.length_cons, List.length_nil] at hi ⊢
          omega
        rw [this]
        simp [TspTree.cities, TspTree.leaves]
      | node t' a b =>
        have h1 : ((inside (steps p) (TspTree.node t' a b).cities).length : ℝ) + 1 ≤ (TspTree.node t' a b).cities.length := by
          exact_mod_cast hi
        refine mul_le_mul_of_nonneg_left ?_ (by linarith)
        have : t' ≤ t := by simpa [TspTree.topLe] using hS
        exact_mod_cast this
    have kl := key l hl il
    have kr := key r hr ir
    rw [List.length_append]
    have hw : ((TspTree.node t l r).weight : ℝ) = t + l.weight + r.weight := by
      simp [TspTree.weight]
    have ht : ((TspTree.node t l r).top : ℝ) = t := rfl
    rw [hw, ht]
    push_cast
    nlinarith

theorem total_inside_all {p L : List Nat} (h : ∀ x ∈ p, x ∈ L) : inside (steps p) L = steps p := by
  unfold inside
  apply List.filter_eq_self.mpr
  intro e he
  have h1 := (List.of_mem_zip he).1
  have h2 := List.mem_of_mem_tail (List.of_mem_zip he).2
  simp [h _ h1, h _ h2]

/-- Every path through all the cities of a tree is at least as long as the tree is heavy. -/
theorem path_bound {p : List Nat} (T : TspTree) (hT : T.Apart c) (hp : p.Nodup) (hperm : p.Perm T.cities) :
    (T.weight : ℝ) ≤ total c (steps p) := by
  have h := tree_bound c hp T hT (hperm.nodup_iff.mp hp)
  rw [total_inside_all (fun x hx => hperm.mem_iff.mp hx)] at h
  have e : (steps p).length = p.length - 1 := by simp [steps]
  have h2 : 1 ≤ p.length := by
    rw [hperm.length_eq]
    exact List.length_pos_of_ne_nil (TspTree.cities_ne_nil T)
  rw [e, ← hperm.length_eq, Nat.cast_sub h2] at h
  simp only [Nat.cast_one, sub_self, zero_mul, sub_zero] at h
  exact h

end Path

/-! ## Tours -/

/-- The point of a city. -/
def pointOf (cities : List (Int × Int)) (i : Nat) : ℝ × ℝ := (planePoints cities).getD i (0, 0)

theorem pathLength_steps (f : Nat → ℝ × ℝ) : ∀ p : List Nat, pathLength (p.map f) = total (fun i j => dist2 (f i) (f j)) (steps p)
  | [] => by simp [pathLength, steps, total]
  | [a] => by simp [pathLength, steps, total]
  | a :: b :: p => by
    have ih := pathLength_steps f (b :: p)
    rw [steps_cons_cons]
    simp only [List.map_cons, pathLength, total, List.sum_cons] at ih ⊢
    rw [ih]

theorem steps_snoc (a : Nat) (p : List Nat) (b r : Nat) (h : (a :: p).getLast? = some b) :
    steps (a :: p ++ [r]) = steps (a :: p) ++ [(b, r)] := by
  induction p generalizing a with
  | nil =>
    simp only [List.getLast?_singleton, Option.some.injEq] at h
    subst h
    rfl
  | cons q p ih =>
    rw [List.getLast?_cons_cons] at h
    have := ih q h
    show steps (a :: q :: (p ++ [r])) = steps (a :: q :: p) ++ [(b, r)]
    rw [steps_cons_cons, steps_cons_cons]
    show (a, q) :: steps (q :: p ++ [r]) = _
    rw [this]
    rfl

theorem total_append (c : Nat → Nat → ℝ) (l m : List (Nat × Nat)) : total c (l ++ m) = total c l + total c m := by
  simp [total]

theorem total_prices (P : Nat → ℝ) : ∀ (a : Nat) (p : List Nat) (b : Nat), (a :: p).getLast? = some b →
    total (fun i j => P i + P j) (steps (a :: p)) = 2 * ((a :: p).map P).sum - P a - P b
  | a, [], b, h => by
    simp only [List.getLast?_singleton, Option.some.injEq] at h
    subst h
    simp [steps, total]
    ring
  | a, q :: p, b, h => by
    rw [List.getLast?_cons_cons] at h
    have ih := total_prices P q p b h
    rw [steps_cons_cons]
    have : ∀ es, total (fun i j => P i + P j) ((a, q) :: es) = P a + P q + total (fun i j => P i + P j) es := fun es => by
      simp [total]
    rw [this, ih]
    simp only [List.map_cons, List.sum_cons]
    ring

theorem total_sub (c d : Nat → Nat → ℝ) (k : ℝ) : ∀ es, total (fun i j => k * c i j - d i j) es = k * total c es - total d es
  | [] => by simp [total]
  | e :: es => by
    have ih := total_sub c d k es
    simp only [total, List.map_cons, List.sum_cons] at ih ⊢
    rw [ih]
    ring

/-- The bound of all the tours: `u` is the city that may be next to the last one. -/
structure TspCert where
  scale : Int
  prices : List Int
  tree : TspTree
  next : Nat
  b1 : Int
  b2 : Int

/-- The last city with its coordinates and price. -/
def TspCert.last (C : TspCert) (cities : List (Int × Int)) : TspLeaf :=
  let n := cities.length - 1
  ⟨n, (cities.getD n (0, 0)).1, (cities.getD n (0, 0)).2, C.prices.getD n 0⟩

/-- The certificate is valid. -/
def TspCert.check (C : TspCert) (cities : List (Int × Int)) : Bool :=
  decide (0 < C.scale) && decide (3 ≤ cities.length) && decide (C.prices.length = cities.length) && decide (C.b1 ≤ C.b2) &&
  (C.tree.leaves.map TspLeaf.i).isPerm (List.range (cities.length - 1)) &&
  C.tree.leaves.all (fun a => cities[a.i]? == some (a.x, a.y) && C.prices[a.i]? == some a.p) &&
  C.tree.valid C.scale &&
  C.tree.leaves.all (fun a => farApart C.scale (if a.i = C.next then C.b1 else C.b2) (C.last cities) a)

/-- The same check for a tree with natural numbers. -/
def TspCert.checkRest (C : TspCert) (cities : List (Int × Int)) : Bool :=
  decide (0 < C.scale) && decide (3 ≤ cities.length) && decide (C.prices.length = cities.length) && decide (C.b1 ≤ C.b2) &&
  (C.tree.leaves.map TspLeaf.i).isPerm (List.range (cities.length - 1)) &&
  C.tree.leaves.all (fun a => cities[a.i]? == some (a.x, a.y) && C.prices[a.i]? == some a.p) &&
  C.tree.leaves.all (fun a => farApart C.scale (if a.i = C.next then C.b1 else C.b2) (C.last cities) a)

theorem TspCert.check_of {C : TspCert} {cities : List (Int × Int)} {T : NatTree} {s k : Nat} (hs : C.scale = s) (hT : C.tree = T.decode k)
    (hv : T.valid (s * s) (3 * k) = true) (hr : C.checkRest cities = true) : C.check cities = true := by
  have h := NatTree.decode_valid s k T hv
  rw [← hT, ← hs] at h
  unfold TspCert.checkRest at hr
  unfold TspCert.check
  rw [Bool.and_eq_true] at hr ⊢
  rw [Bool.and_eq_true]
  exact ⟨⟨hr.1, h⟩, hr.2⟩

/-- The bound of the scaled length. -/
def TspCert.bound (C : TspCert) : Int := C.tree.weight + C.b1 + C.b2 + 2 * C.prices.sum

section Sound

variable (cities : List (Int × Int)) (C : TspCert)

noncomputable def cost (i j : Nat) : ℝ :=
  C.scale * dist2 (pointOf cities i) (pointOf cities j) - ((C.prices.getD i 0 : ℤ) + (C.prices.getD j 0 : ℤ))

theorem dist2_comm (a b : ℝ × ℝ) : dist2 a b = dist2 b a := by
  unfold dist2
  congr 1
  ring

theorem cost_comm (i j : Nat) : cost cities C i j = cost cities C j i := by
  unfold cost
  rw [dist2_comm]
  ring

/-- The data of the leaf are the ones of its city. -/
def LeafOf (a : TspLeaf) : Prop :=
  pointOf cities a.i = ((a.x : ℝ), (a.y : ℝ)) ∧ C.prices.getD a.i 0 = a.p

variable {cities C}

theorem farApart_cost (hs : 0 < C.scale) {t : Int} {a b : TspLeaf} (ha : LeafOf cities C a) (hb : LeafOf cities C b)
    (h : farApart C.scale t a b = true) : (t : ℝ) ≤ cost cities C a.i b.i := by
  have hs' : (0 : ℝ) < C.scale := by exact_mod_cast hs
  unfold cost
  rw [ha.1, hb.1, ha.2, hb.2]
  have hnn : 0 ≤ dist2 ((a.x : ℝ), (a.y : ℝ)) ((b.x : ℝ), (b.y : ℝ)) := Real.sqrt_nonneg _
  have hsq : dist2 ((a.x : ℝ), (a.y : ℝ)) ((b.x : ℝ), (b.y : ℝ)) ^ 2 = ((a.x : ℝ) - b.x) ^ 2 + ((a.y : ℝ) - b.y) ^ 2 := by
    unfold dist2
    rw [Real.sq_sqrt (by positivity)]
  unfold farApart at h
  simp only [Bool.or_eq_true, decide_eq_true_eq] at h
  rcases h with h | h
  · have h' : (t : ℝ) + a.p + b.p ≤ 0 := by exact_mod_cast h
    have := mul_nonneg hs'.le hnn
    linarith
  · have h' : ((t : ℝ) + a.p + b.p) * (t + a.p + b.p) ≤
        C.scale * C.scale * (((a.x : ℝ) - b.x) * (a.x - b.x) + ((a.y : ℝ) - b.y) * (a.y - b.y)) := by exact_mod_cast h
    have h2 : ((t : ℝ) + a.p + b.p) ^ 2 ≤ (C.scale * dist2 ((a.x : ℝ), (a.y : ℝ)) ((b.x : ℝ), (b.y : ℝ))) ^ 2 := by
      rw [mul_pow, hsq]
      nlinarith
    have := abs_le_of_sq_le_sq' h2 (mul_nonneg hs'.le hnn)
    linarith [this.2]

theorem valid_apart (hs : 0 < C.scale) : ∀ T : TspTree, (∀ a ∈ T.leaves, LeafOf cities C a) → T.valid C.scale = true →
    T.Apart (cost cities C)
  | .leaf .., _, _ => trivial
  | .node t l r, hl, hv => by
    simp only [TspTree.valid, Bool.and_eq_true, List.all_eq_true] at hv
    obtain ⟨⟨⟨⟨h1, h2⟩, h3⟩, h4⟩, h5⟩ := hv
    have hla : ∀ a ∈ l.leaves, LeafOf cities C a := fun a ha => hl a (by simp [TspTree.leaves, ha])
    have hra : ∀ a ∈ r.leaves, LeafOf cities C a := fun a ha => hl a (by simp [TspTree.leaves, ha])
    refine ⟨h1, h2, ?_, valid_apart hs l hla h4, valid_apart hs r hra h5⟩
    intro i hi j hj
    obtain ⟨a, ha, rfl⟩ := List.mem_map.mp hi
    obtain ⟨b, hb, rfl⟩ := List.mem_map.mp hj
    have := farApart_cost hs (hla a ha) (hra b hb) (h3 a ha b hb)
    exact ⟨this, by rwa [cost_comm]⟩

theorem leafOf_of_check {a : TspLeaf} (h : (cities[a.i]? == some (a.x, a.y) && C.prices[a.i]? == some a.p) = true) :
    LeafOf cities C a := by
  simp only [Bool.and_eq_true, beq_iff_eq] at h
  constructor
  · unfold pointOf planePoints
    rw [List.getD_eq_getElem?_getD, List.getElem?_map, h.1]
    rfl
  · rw [List.getD_eq_getElem?_getD, h.2]
    rfl

/-- Every tour through the cities is at least as long as the bound of a valid certificate. -/
theorem tour_lower_bound (hC : C.check cities = true) {chrom : List Nat} (hperm : chrom.Perm (List.range (cities.length - 1))) :
    (C.bound : ℝ) ≤ C.scale * tourLength (pointOf cities (cities.length - 1)) (chrom.map (pointOf cities)) := by
  simp only [TspCert.check, Bool.and_eq_true, decide_eq_true_eq, List.all_eq_true, List.isPerm_iff] at hC
  obtain ⟨⟨⟨⟨⟨⟨⟨hs, hlen⟩, hpl⟩, hb⟩, hlp⟩, hleaf⟩, hval⟩, hroot⟩ := hC
  have hlf : ∀ a ∈ C.tree.leaves, LeafOf cities C a := by
    intro a ha
    apply leafOf_of_check
    rw [Bool.and_eq_true]
    exact hleaf a ha
  have hap := valid_apart hs C.tree hlf hval
  have hpt : chrom.Perm C.tree.cities := hperm.trans hlp.symm
  have hnd : chrom.Nodup := hperm.nodup_iff.mpr List.nodup_range
  have hpath := path_bound (cost cities C) C.tree hap hnd hpt
  set n := cities.length - 1 with hn
  have hlast : LeafOf cities C (C.last cities) := by
    constructor
    · unfold pointOf planePoints TspCert.last
      have : n < cities.length := by omega
      simp only [List.getD_eq_getElem?_getD, List.getElem?_map, ← hn, List.getElem?_eq_getElem this, Option.map_some, Option.getD_some]
    · rfl
  have hr : ∀ i ∈ chrom, ((if i = C.next then C.b1 else C.b2 : Int) : ℝ) ≤ cost cities C n i := by
    intro i hi
    obtain ⟨a, ha, rfl⟩ := List.mem_map.mp (hpt.mem_iff.mp hi)
    have h := farApart_cost hs hlast (hlf a ha) (hroot a ha)
    have e : (C.last cities).i = n := rfl
    rw [e] at h
    exact h
  -- the first and the last city of the path
  have hcl : chrom.length = n := by rw [hperm.length_eq, List.length_range]
  obtain ⟨a, p, rfl⟩ : ∃ a p, chrom = a :: p := by
    cases chrom with
    | nil =>
      simp only [List.length_nil] at hcl
      omega
    | cons a p => exact ⟨a, p, rfl⟩
  obtain ⟨b, hbl⟩ : ∃ b, (a :: p).getLast? = some b := ⟨_, List.getLast?_eq_some_getLast (by simp)⟩
  have hbm : b ∈ a :: p := List.mem_of_getLast? hbl
  have hab : a ≠ b := by
    intro e
    subst e
    cases p with
    | nil =>
      simp only [List.length_cons, List.length_nil] at hcl
      omega
    | cons q p =>
      rw [List.getLast?_cons_cons] at hbl
      exact (List.nodup_cons.mp hnd).1 (List.mem_of_getLast? hbl)
  have h1 := hr a (List.mem_cons_self ..)
  have h2 := hr b hbm
  have hends : ((C.b1 + C.b2 : Int) : ℝ) ≤ cost cities C n a + cost cities C n b := by
    have hb' : (C.b1 : ℝ) ≤ C.b2 := by exact_mod_cast hb
    push_cast
    by_cases ha : a = C.next
    · have hb2 : b ≠ C.next := fun e => hab (ha.trans e.symm)
      rw [if_pos ha] at h1
      rw [if_neg hb2] at h2
      linarith
    · rw [if_neg ha] at h1
      by_cases hb2 : b = C.next
      · rw [if_pos hb2] at h2
        linarith
      · rw [if_neg hb2] at h2
        linarith
  -- the sum of the prices
  have hprices : (((a :: p).map (fun i => ((C.prices.getD i 0 : ℤ) : ℝ))).sum) + ((C.prices.getD n 0 : ℤ) : ℝ) = (C.prices.sum : ℤ) := by
    have e1 : ((a :: p).map (fun i => C.prices.getD i 0)).sum = ((List.range n).map (fun i => C.prices.getD i 0)).sum :=
      (hperm.map _).sum_eq
    have e2 : ((List.range n).map (fun i => C.prices.getD i 0)).sum + C.prices.getD n 0 = C.prices.sum := by
      have e3 : (List.range (n + 1)).map (fun i => C.prices.getD i 0) = C.prices := by
        apply List.ext_getElem
        · simp only [List.length_map, List.length_range]
          omega
        · intro i h1 h2
          rw [List.getElem_map, List.getElem_range, List.getD_eq_getElem?_getD, List.getElem?_eq_getElem h2]
          rfl
      rw [List.range_succ, List.map_append, List.map_cons, List.map_nil] at e3
      conv => rhs; rw [← e3]
      rw [List.sum_append, List.sum_singleton]
    rw [← e2, ← e1]
    push_cast
    congr 2
    simp [List.map_map, Function.comp_def]
  have htot := total_sub (fun i j => dist2 (pointOf cities i) (pointOf cities j))
    (fun i j => ((C.prices.getD i 0 : ℤ) : ℝ) + ((C.prices.getD j 0 : ℤ) : ℝ)) (C.scale : ℝ) (steps (a :: p))
  have hpr := total_prices (fun i => ((C.prices.getD i 0 : ℤ) : ℝ)) a p b hbl
  rw [hpr] at htot
  have hcost : total (cost cities C) (steps (a :: p)) =
      total (fun i j => C.scale * dist2 (pointOf cities i) (pointOf cities j) - (((C.prices.getD i 0 : ℤ) : ℝ) + ((C.prices.getD j 0 : ℤ) : ℝ)))
        (steps (a :: p)) := rfl
  rw [hcost, htot] at hpath
  have htour : tourLength (pointOf cities n) ((a :: p).map (pointOf cities)) =
      dist2 (pointOf cities n) (pointOf cities a) + total (fun i j => dist2 (pointOf cities i) (pointOf cities j)) (steps (a :: p)) +
        dist2 (pointOf cities b) (pointOf cities n) := by
    unfold tourLength
    have e : pointOf cities n :: (a :: p).map (pointOf cities) ++ [pointOf cities n] = (n :: a :: p ++ [n]).map (pointOf cities) := by
      simp
    rw [e, pathLength_steps, steps_snoc n (a :: p) b n (by rw [List.getLast?_cons_cons]; exact hbl), total_append, steps_cons_cons]
    simp [total]
  rw [htour]
  unfold TspCert.bound
  unfold cost at hends
  rw [dist2_comm (pointOf cities b)]
  push_cast at hends hprices ⊢
  linarith

end Sound

/-! ## Upper bounds -/

/-- The scaled lengths of the steps of a path are at most the numbers `us`. -/
def stepsAtMost (s : Int) : List (Int × Int) → List Int → Bool
  | a :: b :: ps, u :: us =>
    decide (0 ≤ u) && decide (s * s * ((a.1 - b.1) * (a.1 - b.1) + (a.2 - b.2) * (a.2 - b.2)) ≤ u * u) && stepsAtMost s (b :: ps) us
  | [_], [] => true
  | _, _ => false

theorem stepsAtMost_le {s : Int} (hs : 0 < s) : ∀ (ps : List (Int × Int)) (us : List Int), stepsAtMost s ps us = true →
    (s : ℝ) * pathLength (planePoints ps) ≤ (us.sum : ℤ)
  | [], us, h => by cases us <;> simp [stepsAtMost] at h
  | [a], [], _ => by simp [planePoints, pathLength]
  | [a], u :: us, h => by simp [stepsAtMost] at h
  | a :: b :: ps, [], h => by simp [stepsAtMost] at h
  | a :: b :: ps, u :: us, h => by
    simp only [stepsAtMost, Bool.and_eq_true, decide_eq_true_eq] at h
    obtain ⟨⟨h0, h1⟩, h2⟩ := h
    have ih := stepsAtMost_le hs (b :: ps) us h2
    have hs' : (0 : ℝ) < s := by exact_mod_cast hs
    have h0' : (0 : ℝ) ≤ u := by exact_mod_cast h0
    have h1' : (s : ℝ) * s * (((a.1 : ℝ) - b.1) * (a.1 - b.1) + ((a.2 : ℝ) - b.2) * (a.2 - b.2)) ≤ u * u := by exact_mod_cast h1
    have hd : (s : ℝ) * dist2 ((a.1 : ℝ), (a.2 : ℝ)) ((b.1 : ℝ), (b.2 : ℝ)) ≤ u := by
      apply abs_le_of_sq_le_sq' _ h0' |>.2
      have hsq : dist2 ((a.1 : ℝ), (a.2 : ℝ)) ((b.1 : ℝ), (b.2 : ℝ)) ^ 2 = ((a.1 : ℝ) - b.1) ^ 2 + ((a.2 : ℝ) - b.2) ^ 2 := by
        unfold dist2
        rw [Real.sq_sqrt (by positivity)]
      rw [mul_pow, hsq]
      nlinarith
    have e : pathLength (planePoints (a :: b :: ps)) =
        dist2 ((a.1 : ℝ), (a.2 : ℝ)) ((b.1 : ℝ), (b.2 : ℝ)) + pathLength (planePoints (b :: ps)) := rfl
    rw [e, mul_add, List.sum_cons]
    push_cast
    push_cast at ih
    linarith

/-- A permutation of all but the last city, and bounds of the lengths of the steps of its tour. -/
def tourCheck (s : Int) (cities : List (Int × Int)) (tour : List Nat) (us : List Int) : Bool :=
  decide (0 < s) && tour.isPerm (List.range (cities.length - 1)) &&
    stepsAtMost s (((cities.length - 1) :: tour ++ [cities.length - 1]).map (fun i => cities.getD i (0, 0))) us

theorem tour_upper_bound {s : Int} {cities : List (Int × Int)} {tour : List Nat} {us : List Int}
    (h : tourCheck s cities tour us = true) : tour.Perm (List.range (cities.length - 1)) ∧
      (s : ℝ) * tourLength (pointOf cities (cities.length - 1)) (tour.map (pointOf cities)) ≤ (us.sum : ℤ) := by
  simp only [tourCheck, Bool.and_eq_true, decide_eq_true_eq, List.isPerm_iff] at h
  obtain ⟨⟨hs, hp⟩, hu⟩ := h
  refine ⟨hp, ?_⟩
  have h1 := stepsAtMost_le hs _ _ hu
  have e : planePoints (((cities.length - 1) :: tour ++ [cities.length - 1]).map (fun i => cities.getD i (0, 0))) =
      pointOf cities (cities.length - 1) :: tour.map (pointOf cities) ++ [pointOf cities (cities.length - 1)] := by
    have e1 : ∀ i, (((cities.getD i (0, 0)).1 : ℝ), ((cities.getD i (0, 0)).2 : ℝ)) = pointOf cities i := by
      intro i
      unfold pointOf planePoints
      rw [List.getD_eq_getElem?_getD, List.getD_eq_getElem?_getD, List.getElem?_map]
      cases cities[i]? with
      | none => simp
      | some q => rfl
    unfold planePoints
    rw [List.map_map]
    simp only [Function.comp_def, e1]
    simp
  rw [e] at h1
  exact h1

/-! ## The fitness -/

/-- The fitness of every permutation is at most the negative bound. -/
theorem fitness_le {cities : List (Int × Int)} {C : TspCert} (hC : C.check cities = true) {k : Int} (hk : k ≤ C.bound) {chrom : List Nat}
    (hperm : chrom.Perm (List.range (cities.length - 1))) :
    ∃ f, tspInvoke (planePoints cities) chrom = some f ∧ f ≤ -((k : ℝ) / C.scale) := by
  have h := tour_lower_bound hC hperm
  simp only [TspCert.check, Bool.and_eq_true, decide_eq_true_eq] at hC
  obtain ⟨⟨⟨⟨⟨⟨⟨hs, hlen⟩, -⟩, -⟩, -⟩, -⟩, -⟩, -⟩ := hC
  have hs' : (0 : ℝ) < C.scale := by exact_mod_cast hs
  have hl : (planePoints cities).length = cities.length := by simp [planePoints]
  have e := tspInvoke_eq (planePoints cities) (by omega) chrom (by rw [hperm.length_eq, List.length_range, hl]) (by
    intro a ha
    have := List.mem_range.mp (hperm.mem_iff.mp ha)
    omega)
  rw [hl] at e
  refine ⟨_, e, ?_⟩
  have hk' : (k : ℝ) ≤ C.bound := by exact_mod_cast hk
  rw [neg_le_neg_iff, div_le_iff₀ hs', mul_comm]
  exact hk'.trans h

/-- The fitness of a tour is at least the negative bound. -/
theorem le_fitness {s : Int} {cities : List (Int × Int)} (h2 : 2 ≤ cities.length) {tour : List Nat} {us : List Int} {k : Int}
    (h : tourCheck s cities tour us = true) (hk : us.sum ≤ k) : tour.Perm (List.range (cities.length - 1)) ∧
      ∃ f, tspInvoke (planePoints cities) tour = some f ∧ -((k : ℝ) / s) ≤ f := by
  obtain ⟨hperm, hb⟩ := tour_upper_bound h
  simp only [tourCheck, Bool.and_eq_true, decide_eq_true_eq] at h
  have hs' : (0 : ℝ) < s := by exact_mod_cast h.1.1
  have hl : (planePoints cities).length = cities.length := by simp [planePoints]
  have e := tspInvoke_eq (planePoints cities) (by omega) tour (by rw [hperm.length_eq, List.length_range, hl]) (by
    intro a ha
    have := List.mem_range.mp (hperm.mem_iff.mp ha)
    omega)
  rw [hl] at e
  refine ⟨hperm, _, e, ?_⟩
  have hk' : ((us.sum : ℤ) : ℝ) ≤ k := by exact_mod_cast hk
  rw [neg_le_neg_iff, le_div_iff₀ hs', mul_comm]
  exact hb.trans hk'

end Gapp.Proofs.TspBound
