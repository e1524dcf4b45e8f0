import Verif.Model.CrossoverOps
import Verif.Proofs.CrossoverPoint
import Verif.Proofs.CrossoverOrder
import Verif.Proofs.CrossoverCycle
import Verif.Proofs.EdgeCrossover
/-!
# C12 – C17: the crossover methods
-/

namespace Gapp.Props
open Gapp.Model Gapp.Spec
variable {α : Type}

/-! ## C12: point-wise crossovers -/

/-- **C12 (n-point).** For parents of the same length and crossover points anywhere in the chromosome (in any order, possibly with
repetitions), n-point crossover returns the parents with the genes exchanged at exactly the loci that have an odd number of crossover
points at or before them. (The first child is the one that begins with the genes of the second parent.) -/
theorem C12_npoint (p1 p2 : List α) (hl : p1.length = p2.length) (points : List Nat) (hp : ∀ p ∈ points, p ≤ p1.length) :
    ∃ c1 c2, nPointCrossover p1 p2 points = some (c1, c2) ∧
      Exchanged p2 p1 (fun i => pointsUpTo points i % 2 = 1) c1 c2 := by
  obtain ⟨c, h1, h2⟩ := nPoint_spec hl points hp
  exact ⟨c.1, c.2, h1, h2⟩

/-- **C12 (single-point).** Single-point crossover does the same as n-point crossover with one point. -/
theorem C12_single_point (p1 p2 : List α) (hl : p1.length = p2.length) (point : Nat) (hp : point ≤ p1.length) :
    ∃ c1 c2, singlePointCrossover p1 p2 point = some (c1, c2) ∧ Exchanged p2 p1 (fun i => pointsUpTo [point] i % 2 = 1) c1 c2 := by
  obtain ⟨c, h1, h2⟩ := swapLoci_nodup hl (List.range point) List.nodup_range (by intro i hi; rw [List.mem_range] at hi; omega)
  refine ⟨c.1, c.2, h1, ?_⟩
  refine Exchanged.congr (Exchanged.swap hl h2) ?_
  intro i _
  simp only [List.mem_range, pointsUpTo, List.countP_cons, List.countP_nil, decide_eq_true_eq]
  split <;> omega

/-- **C12 (two-point).** Two-point crossover exchanges the genes as n-point crossover with two points (it returns the two children in the
other order: the first child begins with the genes of the first parent). -/
theorem C12_two_point (p1 p2 : List α) (hl : p1.length = p2.length) (a b : Nat) (ha : a ≤ p1.length) (hb : b ≤ p1.length) :
    ∃ c1 c2, twoPointCrossover p1 p2 (a, b) = some (c1, c2) ∧
      Exchanged p1 p2 (fun i => pointsUpTo [a, b] i % 2 = 1) c1 c2 := by
  have key : ∀ x y, x ≤ y → y ≤ p1.length → ∃ c, swapLoci (p1, p2) (List.range' x (y - x)) = some c ∧
      Exchanged p1 p2 (fun i => pointsUpTo [x, y] i % 2 = 1) c.1 c.2 := by
    intro x y hxy hy
    obtain ⟨c, h1, h2⟩ := swapLoci_nodup hl (List.range' x (y - x)) List.nodup_range'
      (by intro i hi; rw [List.mem_range'_1] at hi; omega)
    refine ⟨c, h1, Exchanged.congr h2 ?_⟩
    intro i _
    simp only [List.mem_range'_1, pointsUpTo, List.countP_cons, List.countP_nil, decide_eq_true_eq]
    split <;> split <;> omega
  by_cases hab : a > b
  · obtain ⟨c, h1, h2⟩ := key b a (by omega) ha
    refine ⟨c.1, c.2, ?_, Exchanged.congr h2 ?_⟩
    · simp only [twoPointCrossover, if_pos hab]; exact h1
    · intro i _
      simp only [pointsUpTo, List.countP_cons, List.countP_nil, Nat.zero_add]
      rw [Nat.add_comm]
  · obtain ⟨c, h1, h2⟩ := key a b (by omega) hb
    refine ⟨c.1, c.2, ?_, h2⟩
    simp only [twoPointCrossover, if_neg hab]; exact h1

/-- **C12 (uniform).** Uniform crossover exchanges the genes at exactly the selected loci. -/
theorem C12_uniform (p1 p2 : List α) (hl : p1.length = p2.length) (idxs : List Nat) (hn : idxs.Nodup)
    (hr : ∀ i ∈ idxs, i < p1.length) :
    ∃ c1 c2, uniformCrossover p1 p2 idxs = some (c1, c2) ∧ Exchanged p1 p2 (fun i => i ∈ idxs) c1 c2 := by
  obtain ⟨c, h1, h2⟩ := swapLoci_nodup hl idxs hn hr
  exact ⟨c.1, c.2, h1, h2⟩

/-- **C12 (operators).** Whatever is drawn, the four operators succeed, and at every locus the pair of child genes is the pair of
parent genes, possibly exchanged. -/
theorem C12_operators (p1 p2 : List α) (hl : p1.length = p2.length) :
    (∀ point, ∃ X c1 c2, opSinglePoint p1 p2 point = some (c1, c2) ∧ Exchanged p1 p2 X c1 c2) ∧
    (∀ a b, ∃ X c1 c2, opTwoPoint p1 p2 a b = some (c1, c2) ∧ Exchanged p1 p2 X c1 c2) ∧
    (∀ draw, ∃ X c1 c2, opNPoint p1 p2 draw = some (c1, c2) ∧ Exchanged p1 p2 X c1 c2) ∧
    (∀ draw, ∃ X c1 c2, opUniform p1 p2 draw = some (c1, c2) ∧ Exchanged p1 p2 X c1 c2) := by
  refine ⟨?_, ?_, ?_, ?_⟩
  · intro point
    obtain ⟨c1, c2, h1, h2⟩ := C12_single_point p1 p2 hl point (by omega)
    exact ⟨_, c1, c2, h1, Exchanged.swap hl.symm h2⟩
  · intro a b
    obtain ⟨c1, c2, h1, h2⟩ := C12_two_point p1 p2 hl a b (by omega) (by omega)
    exact ⟨_, c1, c2, h1, h2⟩
  · intro draw
    obtain ⟨c1, c2, h1, h2⟩ := C12_npoint p1 p2 hl draw.idxs (fun i hi => le_of_lt (draw.lt i hi))
    exact ⟨_, c1, c2, h1, Exchanged.swap hl.symm h2⟩
  · intro draw
    obtain ⟨c1, c2, h1, h2⟩ := C12_uniform p1 p2 hl draw.idxs draw.nodup draw.lt
    exact ⟨_, c1, c2, h1, h2⟩

example : nPointCrossover [0, 0, 0, 0, 0] [1, 1, 1, 1, 1] [4, 1, 3] = some ([1, 0, 0, 1, 0], [0, 1, 1, 0, 1]) := by
  simp [nPointCrossover, preparePoints, List.mergeSort, List.MergeSort.Internal.splitInTwo, List.merge]
  decide
example : singlePointCrossover [0, 0, 0] [1, 1, 1] 2 = some ([1, 1, 0], [0, 0, 1]) := by decide
example : twoPointCrossover [0, 0, 0, 0] [1, 1, 1, 1] (3, 1) = some ([0, 1, 1, 0], [1, 0, 0, 1]) := by decide
example : uniformCrossover [0, 0, 0, 0] [1, 1, 1, 1] [3, 1] = some ([0, 1, 0, 1], [1, 0, 1, 0]) := by decide

/-! ## C13: order crossovers -/

theorem intPerm_segment {p1 : List Nat} (h1 : IsIntPerm p1) {first last : Nat} : ∀ g ∈ segment p1 first last, g < p1.length := by
  intro g hg
  exact IsIntPerm.lt h1 (List.mem_of_mem_drop (List.mem_of_mem_take hg))

theorem intPerm_lt_other {p1 p2 : List Nat} (h2 : IsIntPerm p2) (hl : p1.length = p2.length) : ∀ g ∈ p2, g < p1.length := by
  intro g hg
  rw [hl]; exact IsIntPerm.lt h2 hg

/-- **C13 (order-1).** For all parents with the same distinct genes and every range, order-1 crossover terminates without an invalid
access, and its child is the order-1 child of the parents. -/
theorem C13_order1 [DecidableEq α] (p1 p2 : List α) (h : PermParents p1 p2) (first last : Nat) (h1 : first ≤ last)
    (h2 : last ≤ p1.length) :
    ∃ child, order1Generic p1 p2 first last = some child ∧ IsOrder1Child p1 p2 first last child := by
  obtain ⟨c, hc, hs, _⟩ := order1With_spec h h1 h2 (hashSetOf_direct (segment p1 first last) p2)
  exact ⟨c, hc, hs⟩

/-- **C13 (order-2).** The same for order-2 crossover. -/
theorem C13_order2 [DecidableEq α] (p1 p2 : List α) (h : PermParents p1 p2) (first last : Nat) (h1 : first ≤ last)
    (h2 : last ≤ p1.length) :
    ∃ child, order2Generic p1 p2 first last = some child ∧ IsOrder2Child p1 p2 first last child := by
  obtain ⟨c, hc, hs, _⟩ := order2With_spec h h1 h2 (hashSetOf_direct (segment p1 first last) p2)
  exact ⟨c, hc, hs⟩

/-- **C13 (overloads).** The implementations for unsigned integer genes return the same children, and the specification determines
them. -/
theorem C13_overloads_agree (p1 p2 : List Nat) (hp1 : IsIntPerm p1) (hp2 : IsIntPerm p2) (hl : p1.length = p2.length)
    (first last : Nat) (h1 : first ≤ last) (h2 : last ≤ p1.length) :
    order1Unsigned p1 p2 first last = order1Generic p1 p2 first last ∧
    order2Unsigned p1 p2 first last = order2Generic p1 p2 first last ∧
    (∀ c c', IsOrder1Child p1 p2 first last c → IsOrder1Child p1 p2 first last c' → c = c') ∧
    (∀ c c', IsOrder2Child p1 p2 first last c → IsOrder2Child p1 p2 first last c' → c = c') := by
  have h := IsIntPerm.permParents hp1 hp2 hl
  obtain ⟨bits, hb, hd⟩ := setBits_direct (n := p1.length) (genes := segment p1 first last) (domain := p2)
    (intPerm_segment hp1) (intPerm_lt_other hp2 hl)
  obtain ⟨a, ha, hsa, hua⟩ := order1With_spec h h1 h2 hd
  obtain ⟨b, hbo, hsb, hub⟩ := order2With_spec h h1 h2 hd
  obtain ⟨c, hc, hsc, huc⟩ := order1With_spec h h1 h2 (hashSetOf_direct (segment p1 first last) p2)
  obtain ⟨d, hdd, hsd, hud⟩ := order2With_spec h h1 h2 (hashSetOf_direct (segment p1 first last) p2)
  refine ⟨?_, ?_, ?_, ?_⟩
  · simp only [order1Unsigned, hb, Option.bind_eq_bind, Option.bind_some, order1Generic]
    rw [ha, hc, huc a hsa]
  · simp only [order2Unsigned, hb, Option.bind_eq_bind, Option.bind_some, order2Generic]
    rw [hbo, hdd, hud b hsb]
  · intro x y hx hy; rw [hua x hx, hua y hy]
  · intro x y hx hy; rw [hub x hx, hub y hy]

/-- **C13 (operators).** For chromosomes of the permutation encoding of any length, and for every draw, both order crossover operators
return two permutations; when the chromosomes have at least two genes, these are the children for the drawn range, with the roles of
the parents exchanged for the second child. -/
theorem C13_operators (p1 p2 : List Nat) (hp1 : IsIntPerm p1) (hp2 : IsIntPerm p2) (hl : p1.length = p2.length)
    (draw : 2 ≤ p1.length → RangeDraw p1.length) :
    (∃ c1 c2, permOrder1 p1 p2 draw = some (c1, c2) ∧ IsIntPerm c1 ∧ IsIntPerm c2 ∧
      ∀ h : 2 ≤ p1.length, let first := (draw h).first; let last := (draw h).first + (draw h).length
        IsOrder1Child p1 p2 first last c1 ∧ IsOrder1Child p2 p1 first last c2) ∧
    (∃ c1 c2, permOrder2 p1 p2 draw = some (c1, c2) ∧ IsIntPerm c1 ∧ IsIntPerm c2 ∧
      ∀ h : 2 ≤ p1.length, let first := (draw h).first; let last := (draw h).first + (draw h).length
        IsOrder2Child p1 p2 first last c1 ∧ IsOrder2Child p2 p1 first last c2) := by
  have hperm : ∀ {p c : List Nat}, IsIntPerm p → c.Perm p → IsIntPerm c := by
    intro p c hp hc
    unfold IsIntPerm at *
    rw [hc.length_eq]; exact hc.trans hp
  by_cases hn : p1.length < 2
  · refine ⟨⟨p1, p2, by simp [permOrder1, hn], hp1, hp2, fun h => by omega⟩, ⟨p1, p2, by simp [permOrder2, hn], hp1, hp2, fun h => by omega⟩⟩
  · have h2 : 2 ≤ p1.length := by omega
    generalize hdr : draw h2 = d
    have hle := d.first_ok
    have hlen := d.length_ok
    have hlast : d.first + d.length ≤ p1.length := by omega
    have hlast2 : d.first + d.length ≤ p2.length := by omega
    obtain ⟨a1, ha1, hs1⟩ := C13_order1 p1 p2 (IsIntPerm.permParents hp1 hp2 hl) d.first (d.first + d.length) (by omega) hlast
    obtain ⟨a2, ha2, hs2⟩ := C13_order1 p2 p1 (IsIntPerm.permParents hp2 hp1 hl.symm) d.first (d.first + d.length) (by omega) hlast2
    obtain ⟨b1, hb1, ht1⟩ := C13_order2 p1 p2 (IsIntPerm.permParents hp1 hp2 hl) d.first (d.first + d.length) (by omega) hlast
    obtain ⟨b2, hb2, ht2⟩ := C13_order2 p2 p1 (IsIntPerm.permParents hp2 hp1 hl.symm) d.first (d.first + d.length) (by omega) hlast2
    obtain ⟨e1, f1, _, _⟩ := C13_overloads_agree p1 p2 hp1 hp2 hl d.first (d.first + d.length) (by omega) hlast
    obtain ⟨e2, f2, _, _⟩ := C13_overloads_agree p2 p1 hp2 hp1 hl.symm d.first (d.first + d.length) (by omega) hlast2
    rw [← e1] at ha1; rw [← e2] at ha2; rw [← f1] at hb1; rw [← f2] at hb2
    refine ⟨⟨a1, a2, ?_, hperm hp1 hs1.1, hperm hp2 hs2.1, fun _ => ?_⟩, ⟨b1, b2, ?_, hperm hp1 ht1.1, hperm hp2 ht2.1, fun _ => ?_⟩⟩
    · simp only [permOrder1, dif_neg hn, hdr, ha1, ha2]; rfl
    · rw [hdr]; exact ⟨hs1, hs2⟩
    · simp only [permOrder2, dif_neg hn, hdr, hb1, hb2]; rfl
    · rw [hdr]; exact ⟨ht1, ht2⟩

example : PermParents [0, 1, 2, 3, 4, 5] [5, 3, 0, 4, 2, 1] := by unfold PermParents; decide
example : IsIntPerm [5, 3, 0, 4, 2, 1] := by unfold IsIntPerm; decide
example : order1Generic [0, 1, 2, 3, 4, 5] [5, 3, 0, 4, 2, 1] 2 4 = some [0, 4, 2, 3, 1, 5] := by decide
example : order2Unsigned [0, 1, 2, 3, 4, 5] [5, 3, 0, 4, 2, 1] 2 4 = some [5, 0, 2, 3, 4, 1] := by decide

/-! ## C14: position crossover -/

/-- **C14.** For all parents with the same distinct genes and every list of positions, position crossover terminates without an invalid
access and its child is the position crossover child of the parents, which is unique. -/
theorem C14_position [DecidableEq α] (p1 p2 : List α) (h : PermParents p1 p2) (indices : List Nat) (hi : ∀ i ∈ indices, i < p1.length) :
    ∃ child, positionGeneric p1 p2 indices = some child ∧ IsPositionChild p1 p2 indices child ∧
      ∀ child', IsPositionChild p1 p2 indices child' → child' = child := by
  obtain ⟨c, hc, hs⟩ := positionGeneric_spec h hi
  exact ⟨c, hc, hs, fun c' h' => position_unique h' hs⟩

/-- **C14 (overloads and operator).** The implementation for unsigned integers returns the same child; and for every draw the operator
returns two permutations, the children of the parents in the two orders. -/
theorem C14_overloads_and_operator (p1 p2 : List Nat) (hp1 : IsIntPerm p1) (hp2 : IsIntPerm p2) (hl : p1.length = p2.length) :
    (∀ indices, (∀ i ∈ indices, i < p1.length) → positionUnsigned p1 p2 indices = positionGeneric p1 p2 indices) ∧
    (∀ draw, ∃ c1 c2, permPosition p1 p2 draw = some (c1, c2) ∧ IsIntPerm c1 ∧ IsIntPerm c2 ∧
      (2 ≤ p1.length → IsPositionChild p1 p2 draw.idxs c1 ∧ IsPositionChild p2 p1 draw.idxs c2)) := by
  have hperm : ∀ {p c : List Nat}, IsIntPerm p → c.Perm p → IsIntPerm c := by
    intro p c hp hc
    unfold IsIntPerm at *
    rw [hc.length_eq]; exact hc.trans hp
  constructor
  · intro indices hi
    obtain ⟨c, hc, hs⟩ := positionUnsigned_spec hp1 hp2 hl hi
    obtain ⟨c', hc', hs'⟩ := positionGeneric_spec (IsIntPerm.permParents hp1 hp2 hl) hi
    rw [hc, hc', position_unique hs hs']
  · intro draw
    by_cases hn : p1.length < 2
    · exact ⟨p1, p2, by simp [permPosition, hn], hp1, hp2, fun h => by omega⟩
    · obtain ⟨c, hc, hs⟩ := positionUnsigned_spec hp1 hp2 hl draw.lt
      obtain ⟨c', hc', hs'⟩ := positionUnsigned_spec hp2 hp1 hl.symm (indices := draw.idxs) (fun i hi => by rw [← hl]; exact draw.lt i hi)
      refine ⟨c, c', ?_, hperm hp1 hs.1, hperm hp2 hs'.1, fun _ => ⟨hs, hs'⟩⟩
      simp only [permPosition, if_neg hn, hc, hc']; rfl

example : positionUnsigned [0, 1, 2, 3, 4, 5] [5, 3, 0, 4, 2, 1] [4, 1] = some [5, 1, 3, 0, 4, 2] := by decide

/-! ## C15: cycle crossover -/

/-- **C15.** For all parents with the same distinct genes, cycle crossover terminates without an invalid access, and returns two
permutations: the parents with the genes exchanged at exactly the loci on every second cycle. -/
theorem C15_cycle [DecidableEq α] (p1 p2 : List α) (h : PermParents p1 p2) :
    ∃ c1 c2, cycleGeneric p1 p2 = some (c1, c2) ∧ Exchanged p1 p2 (OnEvenCycle p1 p2) c1 c2 ∧ c1.Perm p1 ∧ c2.Perm p1 := by
  obtain ⟨idxs, c, h1, h2, h3, h4, h5⟩ := cycleWith_spec h (indexOf_lookup h.1)
  refine ⟨c.1, c.2, ?_, h3, h4, h5⟩
  simp only [cycleGeneric, h1, Option.bind_eq_bind, Option.bind_some, h2]

theorem exchanged_unique {p1 p2 c1 c2 d1 d2 : List α} {X : Nat → Prop} (hl : p1.length = p2.length) (h : Exchanged p1 p2 X c1 c2)
    (h' : Exchanged p1 p2 X d1 d2) : c1 = d1 ∧ c2 = d2 := by
  have key : ∀ i : Nat, c1[i]? = d1[i]? ∧ c2[i]? = d2[i]? := by
    intro i
    by_cases hi : i < p1.length
    · by_cases hX : X i
      · have a := h.exchanged i hi hX
        have b := h'.exchanged i hi hX
        exact ⟨a.1.trans b.1.symm, a.2.trans b.2.symm⟩
      · have a := h.kept i hi hX
        have b := h'.kept i hi hX
        exact ⟨a.1.trans b.1.symm, a.2.trans b.2.symm⟩
    · rw [List.getElem?_eq_none (by rw [h.length1]; omega), List.getElem?_eq_none (by rw [h'.length1]; omega),
        List.getElem?_eq_none (by rw [h.length2]; omega), List.getElem?_eq_none (by rw [h'.length2]; omega)]
      exact ⟨rfl, rfl⟩
  exact ⟨List.ext_getElem? fun i => (key i).1, List.ext_getElem? fun i => (key i).2⟩

/-- **C15 (overloads and operator).** The implementation for unsigned integers returns the same children, and the operator returns two
permutations for chromosomes of any length. -/
theorem C15_overloads_and_operator (p1 p2 : List Nat) (hp1 : IsIntPerm p1) (hp2 : IsIntPerm p2) (hl : p1.length = p2.length) :
    cycleUnsigned p1 p2 = cycleGeneric p1 p2 ∧
    ∃ c1 c2, permCycle p1 p2 = some (c1, c2) ∧ IsIntPerm c1 ∧ IsIntPerm c2 ∧
      (2 ≤ p1.length → Exchanged p1 p2 (OnEvenCycle p1 p2) c1 c2) := by
  have h := IsIntPerm.permParents hp1 hp2 hl
  obtain ⟨table, ht, hlk⟩ := indexLookup_spec h.1 (fun g hg => IsIntPerm.lt hp1 hg)
  obtain ⟨idxs, c, h1, h2, h3, h4, h5⟩ := cycleWith_spec h hlk
  obtain ⟨c1, c2, g1, g2, _, _⟩ := C15_cycle p1 p2 h
  have hu : cycleUnsigned p1 p2 = some (c.1, c.2) := by
    simp only [cycleUnsigned, ht, h1, Option.bind_eq_bind, Option.bind_some, h2]
  have hperm : ∀ {p c : List Nat}, IsIntPerm p → c.Perm p → IsIntPerm c := by
    intro p c hp hc
    unfold IsIntPerm at *
    rw [hc.length_eq]; exact hc.trans hp
  obtain ⟨e1, e2⟩ := exchanged_unique hl h3 g2
  refine ⟨by rw [hu, g1, e1, e2], ?_⟩
  by_cases hn : p1.length < 2
  · exact ⟨p1, p2, by simp [permCycle, hn], hp1, hp2, fun h => by omega⟩
  · exact ⟨c.1, c.2, by simp only [permCycle, if_neg hn, hu], hperm hp1 h4, hperm hp1 h5, fun _ => h3⟩

example : cycleUnsigned [0, 1, 2, 3, 4, 5] [1, 0, 3, 2, 5, 4] = some ([0, 1, 3, 2, 4, 5], [1, 0, 2, 3, 5, 4]) := by decide

/-! ## C16: edge crossover -/

/-- **C16 (partial).** For all parents with the same distinct genes (at least two), edge crossover terminates without an invalid access
and returns a permutation that starts with the first gene of the first parent. Every further gene is an unused neighbour of its
predecessor with the fewest unused neighbours of its own, or the first unused gene of the first parent if that has fewer unused
neighbours than all unused neighbours of the predecessor.

What is missing: the claim that a neighbour is taken whenever there is an unused one. It does not hold, see
`C16_neighbour_may_be_skipped`. -/
theorem C16_edge_partial [DecidableEq α] (p1 p2 : List α) (h : PermParents p1 p2) (h2 : 2 ≤ p1.length) :
    ∃ child, edgeGeneric p1 p2 = some child ∧ IsEdgeChild p1 p2 (FirstUnused p1) child :=
  edgeGeneric_spec h h2

/-- **C16 (partial, unsigned integers).** The same for the implementation for unsigned integers, where the fallback is the smallest
unused gene; its four slots per gene are always enough. -/
theorem C16_edge_unsigned_partial (p1 p2 : List Nat) (hp1 : IsIntPerm p1) (hp2 : IsIntPerm p2) (hl : p1.length = p2.length)
    (h2 : 2 ≤ p1.length) :
    ∃ child, edgeUnsigned p1 p2 = some child ∧ IsEdgeChild p1 p2 (SmallestUnused p1) child :=
  edgeUnsigned_spec hp1 hp2 hl h2

/-- **C16 (partial, operator).** The edge crossover operator returns two permutations for chromosomes of any length. -/
theorem C16_operator_partial (p1 p2 : List Nat) (hp1 : IsIntPerm p1) (hp2 : IsIntPerm p2) (hl : p1.length = p2.length) :
    ∃ c1 c2, permEdge p1 p2 = some (c1, c2) ∧ IsIntPerm c1 ∧ IsIntPerm c2 ∧
      (2 ≤ p1.length → IsEdgeChild p1 p2 (SmallestUnused p1) c1 ∧ IsEdgeChild p2 p1 (SmallestUnused p2) c2) := by
  have hperm : ∀ {p c : List Nat}, IsIntPerm p → c.Perm p → IsIntPerm c := by
    intro p c hp hc
    unfold IsIntPerm at *
    rw [hc.length_eq]; exact hc.trans hp
  by_cases hn : p1.length < 2
  · exact ⟨p1, p2, by simp [permEdge, hn], hp1, hp2, fun h => by omega⟩
  · obtain ⟨c1, h1, s1⟩ := edgeUnsigned_spec hp1 hp2 hl (by omega)
    obtain ⟨c2, h2, s2⟩ := edgeUnsigned_spec hp2 hp1 hl.symm (by omega)
    exact ⟨c1, c2, by simp only [permEdge, if_neg hn, h1, h2]; rfl, hperm hp1 s1.1, hperm hp2 s2.1, fun _ => ⟨s1, s2⟩⟩

/-- **C16 (negative part).** It is not true that the next gene is a neighbour of its predecessor whenever an unused neighbour
exists. For these parents the child is `[0, 5, 1, 2, 4, 3]`: after `0, 5` the neighbour `4` of `5` is unused, but `1`, which is not a neighbour
of `5` in either parent, comes next. -/
theorem C16_neighbour_may_be_skipped :
    ∃ (p1 p2 child : List Nat), IsIntPerm p1 ∧ IsIntPerm p2 ∧ edgeUnsigned p1 p2 = some child ∧
      ∃ t last next x, child[t]? = some last ∧ child[t + 1]? = some next ∧
        UnusedNeighbour p1 p2 (child.take (t + 1)) last x ∧ ¬ Adjacent p1 last next ∧ ¬ Adjacent p2 last next := by
  refine ⟨[0, 1, 2, 3, 4, 5], [1, 0, 5, 4, 2, 3], [0, 5, 1, 2, 4, 3], by unfold IsIntPerm; decide, by unfold IsIntPerm; decide,
    by decide, 1, 5, 1, 4, rfl, rfl, ⟨Or.inl ⟨4, Or.inr ⟨rfl, rfl⟩⟩, by decide⟩, ?_, ?_⟩
  · rw [adjacent_iff]
    rintro ⟨i, j, hi, hj, h⟩
    have h1 := getElem?_inj' (p := [0, 1, 2, 3, 4, 5]) (by decide) (List.getElem?_eq_some_iff.1 hi).1 (hi.trans (show some 5 = ([0, 1, 2, 3, 4, 5] : List Nat)[5]? from rfl))
    have h2 := getElem?_inj' (p := [0, 1, 2, 3, 4, 5]) (by decide) (List.getElem?_eq_some_iff.1 hj).1 (hj.trans (show some 1 = ([0, 1, 2, 3, 4, 5] : List Nat)[1]? from rfl))
    omega
  · rw [adjacent_iff]
    rintro ⟨i, j, hi, hj, h⟩
    have h1 := getElem?_inj' (p := [1, 0, 5, 4, 2, 3]) (by decide) (List.getElem?_eq_some_iff.1 hi).1 (hi.trans (show some 5 = ([1, 0, 5, 4, 2, 3] : List Nat)[2]? from rfl))
    have h2 := getElem?_inj' (p := [1, 0, 5, 4, 2, 3]) (by decide) (List.getElem?_eq_some_iff.1 hj).1 (hj.trans (show some 1 = ([1, 0, 5, 4, 2, 3] : List Nat)[0]? from rfl))
    omega

example : edgeUnsigned [0, 1, 2, 3, 4, 5] [1, 0, 5, 4, 2, 3] = some [0, 5, 1, 2, 4, 3] := by decide

/-! ## C17: partially mapped crossover -/

/-- **C17.** For all parents with the same distinct genes and every range, partially mapped crossover terminates without an invalid
access, and its child is the one described by the specification, which is unique. -/
theorem C17_pmx [DecidableEq α] (p1 p2 : List α) (h : PermParents p1 p2) (first last : Nat) (h1 : first ≤ last) (h2 : last ≤ p1.length) :
    ∃ child, pmxGeneric p1 p2 first last = some child ∧ IsPmxChild p1 p2 first last child ∧
      ∀ child', IsPmxChild p1 p2 first last child' → child' = child := by
  obtain ⟨c0, c, g1, g2, g3⟩ := pmxWith_spec h h1 h2 (hashSetOf_direct (segment p1 first last) p2)
    (indexOf_lookup (h.2.nodup_iff.2 h.1))
  refine ⟨c, ?_, g3, fun c' h' => pmx_unique h h2 h' g3⟩
  simp only [pmxGeneric, g1, Option.bind_eq_bind, Option.bind_some, g2]

/-- **C17 (overloads and operator).** The implementation for unsigned integers returns the same child; and for every draw the operator
returns two permutations, the children of the parents in the two orders. -/
theorem C17_overloads_and_operator (p1 p2 : List Nat) (hp1 : IsIntPerm p1) (hp2 : IsIntPerm p2) (hl : p1.length = p2.length) :
    (∀ first last, first ≤ last → last ≤ p1.length → pmxUnsigned p1 p2 first last = pmxGeneric p1 p2 first last) ∧
    (∀ draw, ∃ c1 c2, permPmx p1 p2 draw = some (c1, c2) ∧ IsIntPerm c1 ∧ IsIntPerm c2 ∧
      ∀ h : 2 ≤ p1.length, let first := (draw h).first; let last := (draw h).first + (draw h).length
        IsPmxChild p1 p2 first last c1 ∧ IsPmxChild p2 p1 first last c2) := by
  have hperm : ∀ {p c : List Nat}, IsIntPerm p → c.Perm p → IsIntPerm c := by
    intro p c hp hc
    unfold IsIntPerm at *
    rw [hc.length_eq]; exact hc.trans hp
  have key : ∀ (p1 p2 : List Nat), IsIntPerm p1 → IsIntPerm p2 → p1.length = p2.length → ∀ first last, first ≤ last →
      last ≤ p1.length → pmxUnsigned p1 p2 first last = pmxGeneric p1 p2 first last := by
    intro p1 p2 hp1 hp2 hl first last h1 h2
    have h := IsIntPerm.permParents hp1 hp2 hl
    obtain ⟨bits, hb, hd⟩ := setBits_direct (n := p1.length) (genes := segment p1 first last) (domain := p2)
      (intPerm_segment hp1) (intPerm_lt_other hp2 hl)
    obtain ⟨table, ht, hlk⟩ := indexLookup_spec (h.2.nodup_iff.2 h.1) (fun g hg => IsIntPerm.lt hp2 hg)
    obtain ⟨c0, c, g1, g2, g3⟩ := pmxWith_spec h h1 h2 hd hlk
    obtain ⟨c', g4, g5, g6⟩ := C17_pmx p1 p2 h first last h1 h2
    rw [g4, ← g6 c g3]
    simp only [pmxUnsigned, g1, hb, ht, Option.bind_eq_bind, Option.bind_some, g2]
  refine ⟨key p1 p2 hp1 hp2 hl, ?_⟩
  intro draw
  by_cases hn : p1.length < 2
  · exact ⟨p1, p2, by simp [permPmx, hn], hp1, hp2, fun h => by omega⟩
  · have h2 : 2 ≤ p1.length := by omega
    generalize hdr : draw h2 = d
    have hle := d.first_ok
    have hlen := d.length_ok
    obtain ⟨a, ha, sa, _⟩ := C17_pmx p1 p2 (IsIntPerm.permParents hp1 hp2 hl) d.first (d.first + d.length) (by omega) (by omega)
    obtain ⟨b, hb, sb, _⟩ := C17_pmx p2 p1 (IsIntPerm.permParents hp2 hp1 hl.symm) d.first (d.first + d.length) (by omega) (by omega)
    rw [← key p1 p2 hp1 hp2 hl _ _ (by omega) (by omega)] at ha
    rw [← key p2 p1 hp2 hp1 hl.symm _ _ (by omega) (by omega)] at hb
    refine ⟨a, b, ?_, hperm hp1 sa.1, hperm hp2 sb.1, fun _ => ?_⟩
    · simp only [permPmx, dif_neg hn, hdr, ha, hb]; rfl
    · rw [hdr]; exact ⟨sa, sb⟩

example : pmxUnsigned [0, 1, 2, 3, 4, 5, 6, 7] [3, 7, 5, 1, 6, 0, 2, 4] 3 6 = some [1, 7, 0, 3, 4, 5, 2, 6] := by decide
example : ∃ d : RangeDraw 8, d.first = 3 ∧ d.length = 3 := ⟨⟨3, 3, by decide, by decide⟩, rfl, rfl⟩

end Gapp.Props
