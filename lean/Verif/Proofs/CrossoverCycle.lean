import Verif.Proofs.CrossoverOrder
import Verif.Proofs.CrossoverPoint
import Verif.Proofs.ListAux
/-! Proofs about cycle crossover and partially mapped crossover. -/

namespace Gapp.Model
open Gapp.Spec
variable {α : Type}

/-- A function that finds the position of each gene of a chromosome. -/
def LookupFor (p : List α) (lookup : α → Option Nat) : Prop := ∀ (k : Nat) (g : α), p[k]? = some g → lookup g = some k

theorem indexOf_lookup [DecidableEq α] {p : List α} (hn : p.Nodup) : LookupFor p (indexOf p) := by
  intro k g hk
  obtain ⟨hkl, hkg⟩ := List.getElem?_eq_some_iff.1 hk
  have hlt : p.findIdx (· == g) < p.length := List.findIdx_lt_length.2 ⟨g, by rw [← hkg]; simp, by simp⟩
  have hget := List.findIdx_getElem (w := hlt)
  have : p.findIdx (· == g) = k := by
    apply (List.Nodup.getElem_inj_iff hn (hi := hlt) (hj := hkl)).1
    rw [hkg]; simpa using hget
  simp only [indexOf, this, hkl, if_true]

theorem indexLookup_spec {p : List Nat} (hn : p.Nodup) (hlt : ∀ g ∈ p, g < p.length) :
    ∃ table, indexLookup p = some table ∧ LookupFor p (table[·]?) := by
  have key : ∀ (l : List Nat) (k : Nat) (acc : List Nat), acc.length = p.length → l.Nodup → (∀ g ∈ l, g < p.length) →
      ∃ table, (l.zipIdx k).foldlM (fun table p => if p.1 < table.length then some (table.set p.1 p.2) else none) acc = some table ∧
        table.length = p.length ∧ (∀ i g, l[i]? = some g → table[g]? = some (k + i)) ∧ (∀ g, g ∉ l → table[g]? = acc[g]?) := by
    intro l
    induction l with
    | nil => intro k acc hl _ _; exact ⟨acc, rfl, hl, by simp, by simp⟩
    | cons g l ih =>
      intro k acc hl hnd hb
      have hg : g < p.length := hb g List.mem_cons_self
      rw [List.nodup_cons] at hnd
      obtain ⟨table, ht, htl, h1, h2⟩ := ih (k + 1) (acc.set g k) (by simpa using hl) hnd.2 (fun x hx => hb x (List.mem_cons_of_mem _ hx))
      refine ⟨table, ?_, htl, ?_, ?_⟩
      · rw [List.zipIdx_cons, List.foldlM_cons, if_pos (by omega)]
        exact ht
      · intro i x hx
        cases i with
        | zero =>
          simp only [List.getElem?_cons_zero, Option.some.injEq] at hx
          subst hx
          rw [h2 g hnd.1, List.getElem?_set_self (by omega), Nat.add_zero]
        | succ i =>
          rw [h1 i x (by simpa using hx)]
          congr 1; omega
      · intro x hx
        rw [List.mem_cons, not_or] at hx
        rw [h2 x hx.2, List.getElem?_set_ne (Ne.symm hx.1)]
  obtain ⟨table, ht, _, h1, _⟩ := key p 0 (List.replicate p.length 0) (by simp) hn hlt
  refine ⟨table, ht, ?_⟩
  intro k g hk
  simpa using h1 k g hk

/-- `nxt j k`: the first parent has at `k` the gene that the second has at `j`. -/
def Nxt (p1 p2 : List α) (j k : Nat) : Prop := j < p1.length ∧ k < p1.length ∧ p1[k]? = p2[j]?

section
variable {p1 p2 : List α}

theorem Nxt.exists (h : PermParents p1 p2) {j : Nat} (hj : j < p1.length) : ∃ k, Nxt p1 p2 j k := by
  have hj2 : j < p2.length := by rw [h.2.length_eq]; exact hj
  have : p2[j] ∈ p1 := h.2.mem_iff.1 (List.getElem_mem hj2)
  obtain ⟨k, hk⟩ := List.mem_iff_getElem?.1 this
  exact ⟨k, hj, (List.getElem?_eq_some_iff.1 hk).1, by rw [hk, List.getElem?_eq_getElem hj2]⟩

theorem Nxt.exists_pred (h : PermParents p1 p2) {k : Nat} (hk : k < p1.length) : ∃ j, Nxt p1 p2 j k := by
  have : p1[k] ∈ p2 := h.2.mem_iff.2 (List.getElem_mem hk)
  obtain ⟨j, hj⟩ := List.mem_iff_getElem?.1 this
  have hjl := (List.getElem?_eq_some_iff.1 hj).1
  rw [h.2.length_eq] at hjl
  exact ⟨j, hjl, hk, by rw [hj, List.getElem?_eq_getElem hk]⟩

theorem getElem?_inj' {p : List α} (hn : p.Nodup) {i j : Nat} (hi : i < p.length) (hij : p[i]? = p[j]?) : i = j := by
  rw [List.getElem?_eq_getElem hi] at hij
  obtain ⟨hj, he⟩ := List.getElem?_eq_some_iff.1 hij.symm
  exact (List.Nodup.getElem_inj_iff hn).1 he.symm

theorem Nxt.left_inj (h : PermParents p1 p2) {j j' k : Nat} (h1 : Nxt p1 p2 j k) (h2 : Nxt p1 p2 j' k) : j = j' :=
  getElem?_inj' (h.2.nodup_iff.2 h.1) (by rw [h.2.length_eq]; exact h1.1) (h1.2.2.symm.trans h2.2.2)

theorem Nxt.right_inj (h : PermParents p1 p2) {j k k' : Nat} (h1 : Nxt p1 p2 j k) (h2 : Nxt p1 p2 j k') : k = k' :=
  getElem?_inj' h.1 h1.2.1 (h1.2.2.trans h2.2.2.symm)

/-- A complete cycle with the first visited locus `f`. -/
structure IsCycle (p1 p2 : List α) (f : Nat) (path : List Nat) : Prop where
  nodup : path.Nodup
  lt : ∀ j ∈ path, j < p1.length
  first : f ∈ path
  from_first : ∀ j ∈ path, SameCycle p1 p2 f j
  to_first : ∀ j ∈ path, SameCycle p1 p2 j f
  closed : ∀ j k, Nxt p1 p2 j k → (j ∈ path ↔ k ∈ path)

/-- The part of a cycle that has been visited when the walk is at `pos`. -/
structure IsPath (p1 p2 : List α) (f pos : Nat) (path : List Nat) : Prop where
  nodup : path.Nodup
  lt : ∀ j ∈ path, j < p1.length
  first : f ∈ path
  last : pos ∈ path
  from_first : ∀ j ∈ path, SameCycle p1 p2 f j
  to_last : ∀ j ∈ path, SameCycle p1 p2 j pos
  pred : ∀ k ∈ path, k ≠ f → ∃ j ∈ path, j ≠ pos ∧ Nxt p1 p2 j k
  succ : ∀ j ∈ path, j ≠ pos → ∃ k ∈ path, Nxt p1 p2 j k

theorem IsPath.length_le {f pos : Nat} {path : List Nat} (hp : IsPath p1 p2 f pos path) : path.length ≤ p1.length := by
  have : path.Subperm (List.range p1.length) :=
    List.subperm_of_subset hp.nodup (fun j hj => List.mem_range.2 (hp.lt j hj))
  simpa using this.length_le

theorem IsPath.complete (h : PermParents p1 p2) {f pos : Nat} {path : List Nat} (hp : IsPath p1 p2 f pos path)
    (hlast : Nxt p1 p2 pos f) : IsCycle p1 p2 f path := by
  refine ⟨hp.nodup, hp.lt, hp.first, hp.from_first, ?_, ?_⟩
  · intro j hj
    exact SameCycle.step (hp.to_last j hj) hlast.2.1 hlast.2.2
  · intro j k hjk
    constructor
    · intro hj
      by_cases hjp : j = pos
      · subst hjp
        rw [Nxt.right_inj h hjk hlast]; exact hp.first
      · obtain ⟨k', hk', hn⟩ := hp.succ j hj hjp
        rw [Nxt.right_inj h hjk hn]; exact hk'
    · intro hk
      by_cases hkf : k = f
      · subst hkf
        rw [Nxt.left_inj h hjk hlast]; exact hp.last
      · obtain ⟨j', hj', _, hn⟩ := hp.pred k hk hkf
        rw [Nxt.left_inj h hjk hn]; exact hj'

theorem IsPath.extend (h : PermParents p1 p2) {f pos k : Nat} {path : List Nat} (hp : IsPath p1 p2 f pos path)
    (hnxt : Nxt p1 p2 pos k) (hkf : k ≠ f) : k ∉ path ∧ IsPath p1 p2 f k (path ++ [k]) := by
  have hk : k ∉ path := by
    intro hk
    obtain ⟨j, _, hne, hn⟩ := hp.pred k hk hkf
    exact hne (Nxt.left_inj h hn hnxt)
  have hpk : pos ≠ k := fun e => hk (e ▸ hp.last)
  refine ⟨hk, ?_, ?_, ?_, ?_, ?_, ?_, ?_, ?_⟩
  · rw [List.nodup_append]
    exact ⟨hp.nodup, List.nodup_singleton _, by
      intro a ha b hb; rw [List.mem_singleton] at hb; subst hb; intro e; exact hk (e ▸ ha)⟩
  · intro j hj
    rcases List.mem_append.1 hj with hj | hj
    · exact hp.lt j hj
    · rw [List.mem_singleton] at hj; subst hj; exact hnxt.2.1
  · exact List.mem_append_left _ hp.first
  · simp
  · intro j hj
    rcases List.mem_append.1 hj with hj | hj
    · exact hp.from_first j hj
    · rw [List.mem_singleton] at hj; subst hj
      exact SameCycle.step (hp.from_first pos hp.last) hnxt.2.1 hnxt.2.2
  · intro j hj
    rcases List.mem_append.1 hj with hj | hj
    · exact SameCycle.step (hp.to_last j hj) hnxt.2.1 hnxt.2.2
    · rw [List.mem_singleton] at hj; subst hj; exact SameCycle.refl _
  · intro l hl hlf
    rcases List.mem_append.1 hl with hl | hl
    · obtain ⟨j, hj, _, hn⟩ := hp.pred l hl hlf
      exact ⟨j, List.mem_append_left _ hj, fun e => hk (e ▸ hj), hn⟩
    · rw [List.mem_singleton] at hl; subst hl
      exact ⟨pos, List.mem_append_left _ hp.last, hpk, hnxt⟩
  · intro j hj hjk
    rcases List.mem_append.1 hj with hj | hj
    · by_cases hjp : j = pos
      · subst hjp
        exact ⟨k, by simp, hnxt⟩
      · obtain ⟨l, hl, hn⟩ := hp.succ j hj hjp
        exact ⟨l, List.mem_append_left _ hl, hn⟩
    · rw [List.mem_singleton] at hj; exact absurd hj hjk

theorem isPath_single {f : Nat} (hf : f < p1.length) : IsPath p1 p2 f f [f] := by
  refine ⟨List.nodup_singleton _, ?_, by simp, by simp, ?_, ?_, ?_, ?_⟩
  · intro j hj; rw [List.mem_singleton] at hj; omega
  · intro j hj; rw [List.mem_singleton] at hj; subst hj; exact SameCycle.refl _
  · intro j hj; rw [List.mem_singleton] at hj; subst hj; exact SameCycle.refl _
  · intro j hj hne; rw [List.mem_singleton] at hj; exact absurd hj hne
  · intro j hj hne; rw [List.mem_singleton] at hj; exact absurd hj hne

/-- The state `s'` is the state `s` after the visit of all loci in `path`. -/
structure Visited (n : Nat) (s s' : CycleState) (oddCycle : Bool) (path : List Nat) : Prop where
  length : s'.deleted.length = n
  deleted : ∀ i, i < n → (s'.deleted[i]? = some true ↔ s.deleted[i]? = some true ∨ i ∈ path)
  num : s'.numDeleted = s.numDeleted + path.length
  odd : s'.odd = if oddCycle then s.odd ++ path else s.odd

theorem Visited.visit {n : Nat} {s s' : CycleState} {oddCycle : Bool} {path : List Nat} (h : Visited n s s' oddCycle path)
    {k : Nat} (hk : k < n) : ∃ s'', s'.visit oddCycle k = some s'' ∧ Visited n s s'' oddCycle (path ++ [k]) := by
  refine ⟨_, by rw [CycleState.visit, if_pos (by rw [h.length]; exact hk)], ?_, ?_, ?_, ?_⟩
  · simp [h.length]
  · intro i hi
    simp only [List.getElem?_set, List.mem_append, List.mem_singleton, h.length]
    by_cases hki : k = i
    · simp [hki, hi]
    · simp only [hki, if_false]
      rw [h.deleted i hi]
      simp [Ne.symm hki]
  · simp [h.num]; omega
  · simp only [h.odd]
    cases oddCycle <;> simp

theorem cycleWalk_spec [DecidableEq α] (h : PermParents p1 p2) {lookup : α → Option Nat} (hlk : LookupFor p1 lookup) {f : Nat}
    {start : α} (hstart : p1[f]? = some start) (oddCycle : Bool) (s : CycleState) :
    ∀ (fuel pos : Nat) (path : List Nat) (s' : CycleState), IsPath p1 p2 f pos path → Visited p1.length s s' oddCycle path →
      p1.length < fuel + path.length →
      ∃ s'' path', cycleWalk lookup p2 oddCycle start fuel pos s' = some s'' ∧ IsCycle p1 p2 f path' ∧
        Visited p1.length s s'' oddCycle path' := by
  intro fuel
  induction fuel with
  | zero =>
    intro pos path s' hp _ hf
    have := hp.length_le
    omega
  | succ fuel ih =>
    intro pos path s' hp hv hf
    have hpos : pos < p1.length := hp.lt pos hp.last
    have hpos2 : pos < p2.length := by rw [h.2.length_eq]; exact hpos
    have hflt : f < p1.length := hp.lt f hp.first
    have hget : p2[pos]? = some p2[pos] := List.getElem?_eq_getElem hpos2
    by_cases hg : p2[pos] = start
    · refine ⟨s', path, ?_, hp.complete h ⟨hpos, hflt, ?_⟩, hv⟩
      · simp [cycleWalk, hget, hg]
      · rw [hstart, hget, hg]
    · obtain ⟨k, hk⟩ := Nxt.exists h hpos
      have hkg : p1[k]? = some p2[pos] := by rw [hk.2.2, hget]
      have hkf : k ≠ f := by
        intro e
        rw [e, hstart, Option.some.injEq] at hkg
        exact hg hkg.symm
      obtain ⟨_, hp'⟩ := hp.extend h hk hkf
      obtain ⟨s1, hs1, hv1⟩ := hv.visit hk.2.1
      obtain ⟨s'', path', he, hc, hv''⟩ := ih k (path ++ [k]) s1 hp' hv1 (by simp; omega)
      refine ⟨s'', path', ?_, hc, hv''⟩
      simp only [cycleWalk, hget, Option.bind_eq_bind, Option.bind_some, hg, if_false, hlk k _ hkg, hs1]
      exact he

theorem SameCycle.closed {S : Nat → Prop} (hS : ∀ j k, Nxt p1 p2 j k → (S j ↔ S k)) :
    ∀ {i j : Nat}, SameCycle p1 p2 i j → i < p1.length → (S i ↔ S j) ∧ j < p1.length := by
  intro i j hij
  induction hij with
  | refl => intro hi; exact ⟨Iff.rfl, hi⟩
  | step _ hk he ih =>
    intro hi
    have := ih hi
    exact ⟨this.1.trans (hS _ _ ⟨this.2, hk, he⟩), hk⟩

/-- The invariant of the loop over the cycles. -/
structure CycleInv (p1 p2 : List α) (oddCycle : Bool) (s : CycleState) : Prop where
  length : s.deleted.length = p1.length
  num : s.numDeleted = s.deleted.count true
  closed : ∀ j k, Nxt p1 p2 j k → (s.deleted[j]? = some true ↔ s.deleted[k]? = some true)
  oddClosed : ∀ j k, Nxt p1 p2 j k → (j ∈ s.odd ↔ k ∈ s.odd)
  firsts : ∀ f, FirstOfCycle p1 p2 f → s.deleted[f]? = some true → ∀ i, i < f → s.deleted[i]? = some true
  parity : ∀ f, f < p1.length → s.deleted[f]? ≠ some true → (∀ i, i < f → s.deleted[i]? = some true) →
    (cyclesBefore p1 p2 f % 2 = 1 ↔ oddCycle = true)
  oddNodup : s.odd.Nodup
  oddDeleted : ∀ i ∈ s.odd, i < p1.length ∧ s.deleted[i]? = some true
  oddEven : ∀ i, s.deleted[i]? = some true → (i ∈ s.odd ↔ OnEvenCycle p1 p2 i)

theorem firstOfCycle_of_undeleted {oddCycle : Bool} {s : CycleState} (hs : CycleInv p1 p2 oddCycle s) {f : Nat} (hf : f < p1.length)
    (hfd : s.deleted[f]? ≠ some true) (hall : ∀ i, i < f → s.deleted[i]? = some true) : FirstOfCycle p1 p2 f := by
  refine ⟨hf, ?_⟩
  intro j hj
  by_contra hlt
  have := (SameCycle.closed (S := fun i => s.deleted[i]? = some true) hs.closed hj hf).1
  exact hfd (this.2 (hall j (by omega)))

theorem count_true_eq {l l' : List Bool} (path : List Nat) (hn : path.Nodup) (hl : l.length = l'.length)
    (hlt : ∀ i ∈ path, i < l.length) (hnew : ∀ i ∈ path, l[i]? ≠ some true)
    (h : ∀ i, i < l.length → (l'[i]? = some true ↔ l[i]? = some true ∨ i ∈ path)) :
    l'.count true = l.count true + path.length := by
  have conv : ∀ m : List Bool, m.count true = ((List.range m.length).filter (fun i => decide (m[i]? = some true))).length := by
    intro m
    induction m using Gapp.ListAux.snoc_induction with
    | nil => rfl
    | append_singleton m b ih =>
      rw [List.count_append, ih, List.length_append, List.length_singleton, List.range_succ, List.filter_append, List.length_append]
      congr 1
      · congr 1
        apply List.filter_congr
        intro i hi
        rw [List.mem_range] at hi
        rw [List.getElem?_append_left hi]
      · cases b <;> simp
  rw [conv l', conv l, ← hl, ← List.length_append]
  apply List.Perm.length_eq
  rw [List.perm_ext_iff_of_nodup (List.nodup_range.filter _)]
  · intro i
    rw [List.mem_append]
    simp only [List.mem_filter, List.mem_range, decide_eq_true_eq]
    constructor
    · rintro ⟨h1, h2⟩
      rcases (h i h1).1 h2 with h3 | h3
      · exact Or.inl ⟨h1, h3⟩
      · exact Or.inr h3
    · rintro (⟨h1, h2⟩ | h2)
      · exact ⟨h1, (h i h1).2 (Or.inl h2)⟩
      · exact ⟨hlt i h2, (h i (hlt i h2)).2 (Or.inr h2)⟩
  · rw [List.nodup_append]
    refine ⟨List.nodup_range.filter _, hn, ?_⟩
    rintro a ha b hb rfl
    simp only [List.mem_filter, List.mem_range, decide_eq_true_eq] at ha
    exact hnew a hb ha.2

/-- One iteration of the loop keeps the invariant. -/
theorem CycleInv.step {oddCycle : Bool} {s s' : CycleState} (hs : CycleInv p1 p2 oddCycle s) {f : Nat}
    (hfd : s.deleted[f]? ≠ some true) (hall : ∀ i, i < f → s.deleted[i]? = some true) {path : List Nat}
    (hc : IsCycle p1 p2 f path) (hv : Visited p1.length s s' oddCycle path) : CycleInv p1 p2 (!oddCycle) s' := by
  have hf : f < p1.length := hc.lt f hc.first
  have hfirst := firstOfCycle_of_undeleted hs hf hfd hall
  have hdelpath : ∀ j ∈ path, s.deleted[j]? ≠ some true := by
    intro j hj hd
    have := (SameCycle.closed (S := fun i => s.deleted[i]? = some true) hs.closed (hc.from_first j hj) hf).1
    exact hfd (this.2 hd)
  have hlt_of : ∀ {st : CycleState}, st.deleted.length = p1.length → ∀ {i}, st.deleted[i]? = some true → i < p1.length := by
    intro st hl i hi
    rw [← hl]; exact (List.getElem?_eq_some_iff.1 hi).1
  -- the only first locus on the new cycle is `f`
  have honly : ∀ j ∈ path, FirstOfCycle p1 p2 j → j = f := by
    intro j hj hjf
    have h1 := hjf.2 f (hc.to_first j hj)
    have h2 := hfirst.2 j (hc.from_first j hj)
    omega
  have hfs : ∀ g, FirstOfCycle p1 p2 g → s.deleted[g]? = some true → g < f := by
    intro g hg hd
    by_contra hge
    rcases Nat.lt_or_ge f g with h1 | h1
    · exact hfd (hs.firsts g hg hd f h1)
    · have : g = f := by omega
      exact hfd (this ▸ hd)
  have heven : ∀ j ∈ path, (OnEvenCycle p1 p2 j ↔ oddCycle = true) := by
    intro j hj
    rw [← hs.parity f hf hfd hall]
    constructor
    · rintro ⟨g, hg1, hg2, hg3⟩
      have hgp : g ∈ path := ((SameCycle.closed (S := (· ∈ path)) hc.closed hg2 hg1.1).1).2 hj
      rw [← honly g hgp hg1]; exact hg3
    · intro hpar
      exact ⟨f, hfirst, hc.from_first j hj, hpar⟩
  refine ⟨hv.length, ?_, ?_, ?_, ?_, ?_, ?_, ?_, ?_⟩
  · rw [hv.num, hs.num]
    exact (count_true_eq path hc.nodup (by rw [hs.length, hv.length]) (by rw [hs.length]; exact hc.lt) hdelpath
      (by rw [hs.length]; exact hv.deleted)).symm
  · intro j k hjk
    rw [hv.deleted j hjk.1, hv.deleted k hjk.2.1, hs.closed j k hjk, hc.closed j k hjk]
  · intro j k hjk
    rw [hv.odd]
    cases oddCycle with
    | true =>
      simp only [if_true, List.mem_append]
      rw [hs.oddClosed j k hjk, hc.closed j k hjk]
    | false => exact hs.oddClosed j k hjk
  · intro g hg hd i hi
    have hgl : g < p1.length := hg.1
    rw [hv.deleted i (by omega)]
    rcases (hv.deleted g hgl).1 hd with h1 | h1
    · exact Or.inl (hs.firsts g hg h1 i hi)
    · rw [honly g h1 hg] at hi
      exact Or.inl (hall i hi)
  · intro f' hf' hfd' hall'
    have hff' : f < f' := by
      by_contra hge
      have hne : f ≠ f' := by
        rintro rfl
        exact hfd' ((hv.deleted f hf).2 (Or.inr hc.first))
      exact hfd' ((hv.deleted f' hf').2 (Or.inl (hall f' (by omega))))
    have hcb : cyclesBefore p1 p2 f' = cyclesBefore p1 p2 f + 1 := by
      classical
      unfold cyclesBefore
      rw [show f' = f + (f' - f) by omega, List.range_add, List.countP_append, List.countP_map]
      congr 1
      rw [show f' - f = (f' - f - 1) + 1 by omega, List.range_succ_eq_map, List.countP_cons, List.countP_map]
      simp only [Function.comp, Nat.add_zero, hfirst, decide_true, if_true]
      have hz : List.countP ((fun j => decide (FirstOfCycle p1 p2 j)) ∘ (fun x => f + x) ∘ Nat.succ) (List.range (f' - f - 1)) = 0 := by
        rw [List.countP_eq_zero]
        intro d hd
        rw [List.mem_range] at hd
        simp only [Function.comp, decide_eq_true_eq]
        intro hfc
        have hd' := hall' (f + d.succ) (by simp; omega)
        rcases (hv.deleted _ hfc.1).1 hd' with h1 | h1
        · have := hfs _ hfc h1
          omega
        · have := honly _ h1 hfc
          omega
      exact congrArg (· + 1) hz
    have := hs.parity f hf hfd hall
    rw [hcb]
    cases oddCycle with
    | true => simp at this ⊢; omega
    | false => simp at this ⊢; omega
  · rw [hv.odd]
    cases oddCycle with
    | true =>
      simp only [if_true]
      rw [List.nodup_append]
      refine ⟨hs.oddNodup, hc.nodup, ?_⟩
      rintro a ha b hb rfl
      exact hdelpath a hb (hs.oddDeleted a ha).2
    | false => exact hs.oddNodup
  · intro i hi
    rw [hv.odd] at hi
    have : i ∈ s.odd ∨ i ∈ path := by
      cases oddCycle with
      | true => simpa using hi
      | false => exact Or.inl hi
    rcases this with h1 | h1
    · have := hs.oddDeleted i h1
      exact ⟨this.1, (hv.deleted i this.1).2 (Or.inl this.2)⟩
    · exact ⟨hc.lt i h1, (hv.deleted i (hc.lt i h1)).2 (Or.inr h1)⟩
  · intro i hi
    have hil := hlt_of hv.length hi
    rw [hv.odd]
    rcases (hv.deleted i hil).1 hi with h1 | h1
    · have hnp : i ∉ path := fun hp => hdelpath i hp h1
      rw [← hs.oddEven i h1]
      cases oddCycle <;> simp [hnp]
    · rw [heven i h1]
      have hno : i ∉ s.odd := fun ho => hdelpath i h1 (hs.oddDeleted i ho).2
      cases oddCycle <;> simp [h1, hno]

theorem cycleLoop_spec [DecidableEq α] (h : PermParents p1 p2) {lookup : α → Option Nat} (hlk : LookupFor p1 lookup) :
    ∀ (fuel : Nat) (oddCycle : Bool) (s : CycleState), CycleInv p1 p2 oddCycle s → p1.length < fuel + s.numDeleted →
      ∃ s' odd', cycleLoop lookup p1 p2 fuel oddCycle s = some s' ∧ CycleInv p1 p2 odd' s' ∧ p1.length ≤ s'.numDeleted := by
  intro fuel
  induction fuel with
  | zero =>
    intro oddCycle s hs hf
    have := List.count_le_length (a := true) (l := s.deleted)
    rw [hs.length, ← hs.num] at this
    omega
  | succ fuel ih =>
    intro oddCycle s hs hf
    by_cases hlt : s.numDeleted < p1.length
    · have hex : s.deleted.findIdx (· == false) < s.deleted.length := by
        rw [List.findIdx_lt_length]
        by_contra hno
        push Not at hno
        have : s.deleted.count true = s.deleted.length := by
          rw [List.count_eq_length]
          intro b hb
          have := hno b hb
          cases b <;> simp_all
        rw [hs.num, this, hs.length] at hlt
        omega
      generalize hfi : s.deleted.findIdx (· == false) = f at hex
      have hfl : f < p1.length := by rw [← hs.length]; exact hex
      have hff : s.deleted[f]? = some false := by
        have := List.findIdx_getElem (xs := s.deleted) (p := (· == false)) (w := by rw [hfi]; exact hex)
        rw [List.getElem?_eq_getElem hex]
        simp only [hfi, beq_iff_eq] at this
        rw [this]
      have hall : ∀ i, i < f → s.deleted[i]? = some true := by
        intro i hi
        have := List.not_of_lt_findIdx (xs := s.deleted) (p := (· == false)) (i := i) (by rw [hfi]; exact hi)
        rw [List.getElem?_eq_getElem (by omega)]
        simpa using this
      have hv0 : Visited p1.length s s oddCycle [] := by
        refine ⟨hs.length, by intro i _; simp, by simp, by cases oddCycle <;> simp⟩
      obtain ⟨s1, hs1, hv1⟩ := hv0.visit hfl
      have hstart : p1[f]? = some p1[f] := List.getElem?_eq_getElem hfl
      obtain ⟨s2, path, hw, hc, hv⟩ := cycleWalk_spec h hlk hstart oddCycle s (p1.length + 1) f [f] s1 (isPath_single hfl) hv1
        (by simp; omega)
      have hs2 := hs.step (by rw [hff]; simp) hall hc hv
      have hpl : 0 < path.length := List.length_pos_of_mem hc.first
      obtain ⟨s', odd', hl, hi, hn⟩ := ih (!oddCycle) s2 hs2 (by rw [hv.num]; omega)
      refine ⟨s', odd', ?_, hi, hn⟩
      simp only [cycleLoop, hlt, if_true, hfi, hstart, Option.bind_eq_bind, Option.bind_some, hs1, hw, hl]
    · refine ⟨s, oddCycle, ?_, hs, by omega⟩
      simp [cycleLoop, hlt]

theorem cycleInv_init (p1 p2 : List α) : CycleInv p1 p2 false ⟨List.replicate p1.length false, 0, []⟩ := by
  have hno : ∀ i : Nat, (List.replicate p1.length false)[i]? ≠ some true := by
    intro i
    rw [List.getElem?_replicate]
    split <;> simp
  refine ⟨by simp, by simp [List.count_replicate], ?_, by simp, ?_, ?_, List.nodup_nil, by simp, ?_⟩
  · intro j k _
    exact ⟨fun h => absurd h (hno j), fun h => absurd h (hno k)⟩
  · intro f _ h; exact absurd h (hno f)
  · intro f _ _ hall
    have : f = 0 := by
      by_contra hne
      exact hno 0 (hall 0 (by omega))
    subst this
    simp [cyclesBefore]
  · intro i h; exact absurd h (hno i)

theorem findOddCycles_spec [DecidableEq α] (h : PermParents p1 p2) {lookup : α → Option Nat} (hlk : LookupFor p1 lookup) :
    ∃ idxs, findOddCycleIndicesWith lookup p1 p2 = some idxs ∧ idxs.Nodup ∧ (∀ i ∈ idxs, i < p1.length) ∧
      (∀ i, i < p1.length → (i ∈ idxs ↔ OnEvenCycle p1 p2 i)) ∧ (∀ j k, Nxt p1 p2 j k → (j ∈ idxs ↔ k ∈ idxs)) := by
  obtain ⟨s, odd, hl, hi, hn⟩ := cycleLoop_spec h hlk (p1.length + 1) false _ (cycleInv_init p1 p2) (by simp)
  refine ⟨s.odd, by simp only [findOddCycleIndicesWith, hl]; rfl, hi.oddNodup, fun i h => (hi.oddDeleted i h).1, ?_, hi.oddClosed⟩
  have hfull : s.deleted.count true = s.deleted.length := by
    have := List.count_le_length (a := true) (l := s.deleted)
    rw [hi.num] at hn
    rw [hi.length] at this ⊢
    omega
  intro i hil
  apply hi.oddEven
  rw [List.count_eq_length] at hfull
  rw [List.getElem?_eq_getElem (by rw [hi.length]; exact hil)]
  rw [← hfull _ (List.getElem_mem _)]

theorem perm_of_subset {p c : List α} (hn : p.Nodup) (hs : ∀ g ∈ p, g ∈ c) (hl : c.length ≤ p.length) : c.Perm p :=
  ((List.subperm_of_subset hn hs).perm_of_length_le hl).symm

/-- Exchanging a union of cycles leaves permutations. -/
theorem Exchanged.perm (h : PermParents p1 p2) {X : Nat → Prop} (hX : ∀ j k, Nxt p1 p2 j k → (X j ↔ X k)) {c1 c2 : List α}
    (he : Exchanged p1 p2 X c1 c2) : c1.Perm p1 ∧ c2.Perm p1 := by
  have hn2 : p2.Nodup := h.2.nodup_iff.2 h.1
  constructor
  · apply perm_of_subset h.1 _ (le_of_eq he.length1)
    intro g hg
    obtain ⟨k, hk⟩ := List.mem_iff_getElem?.1 hg
    have hkl := (List.getElem?_eq_some_iff.1 hk).1
    by_cases hx : X k
    · obtain ⟨j, hj⟩ := Nxt.exists_pred h hkl
      have := (he.exchanged j hj.1 ((hX j k hj).2 hx)).1
      apply List.mem_of_getElem? (i := j)
      rw [this, ← hj.2.2, hk]
    · apply List.mem_of_getElem? (i := k)
      rw [(he.kept k hkl hx).1, hk]
  · refine (perm_of_subset hn2 ?_ (le_of_eq he.length2)).trans h.2
    intro g hg
    obtain ⟨j, hj⟩ := List.mem_iff_getElem?.1 hg
    have hjl := (List.getElem?_eq_some_iff.1 hj).1
    rw [h.2.length_eq] at hjl
    by_cases hx : X j
    · obtain ⟨k, hk⟩ := Nxt.exists h hjl
      have := (he.exchanged k hk.2.1 ((hX j k hk).1 hx)).2
      apply List.mem_of_getElem? (i := k)
      rw [this, hk.2.2, hj]
    · apply List.mem_of_getElem? (i := j)
      rw [(he.kept j hjl hx).2, hj]

theorem cycleWith_spec [DecidableEq α] (h : PermParents p1 p2) {lookup : α → Option Nat} (hlk : LookupFor p1 lookup) :
    ∃ idxs c, findOddCycleIndicesWith lookup p1 p2 = some idxs ∧ swapLoci (p1, p2) idxs = some c ∧
      Exchanged p1 p2 (OnEvenCycle p1 p2) c.1 c.2 ∧ c.1.Perm p1 ∧ c.2.Perm p1 := by
  obtain ⟨idxs, hi, hn, hlt, heven, hcl⟩ := findOddCycles_spec h hlk
  obtain ⟨c, hc, he⟩ := swapLoci_nodup h.2.length_eq.symm idxs hn hlt
  refine ⟨idxs, c, hi, hc, Exchanged.congr he heven, ?_⟩
  exact Exchanged.perm h hcl he

section Pmx
variable {first last : Nat}

theorem mem_segment_iff {p : List α} {first last : Nat} {g : α} :
    g ∈ segment p first last ↔ ∃ i, first ≤ i ∧ i < last ∧ p[i]? = some g := by
  rw [List.mem_iff_getElem?]
  constructor
  · rintro ⟨i, hi⟩
    have hlt : i < last - first := by
      have := (List.getElem?_eq_some_iff.1 hi).1
      simp [segment] at this; omega
    rw [segment, List.getElem?_take_of_lt hlt, List.getElem?_drop] at hi
    exact ⟨first + i, by omega, by omega, hi⟩
  · rintro ⟨i, h1, h2, h3⟩
    refine ⟨i - first, ?_⟩
    rw [segment, List.getElem?_take_of_lt (by omega), List.getElem?_drop, show first + (i - first) = i by omega, h3]

theorem permParents_symm (h : PermParents p1 p2) : PermParents p2 p1 := ⟨h.2.nodup_iff.2 h.1, h.2.symm⟩

theorem pmxCopy_spec (p1 : List α) (first : Nat) : ∀ (m : Nat) (c : List α), first + m ≤ p1.length → c.length = p1.length →
    ∃ c', (List.range' first m).foldlM (fun c i => do
        let g ← p1[i]?
        if i < c.length then some (c.set i g) else none) c = some c' ∧ c'.length = p1.length ∧
      ∀ q, c'[q]? = if first ≤ q ∧ q < first + m then p1[q]? else c[q]? := by
  intro m
  induction m with
  | zero =>
    intro c _ hl
    refine ⟨c, rfl, hl, ?_⟩
    intro q; rw [if_neg (by omega)]
  | succ m ih =>
    intro c hm hl
    obtain ⟨c', hc', hl', hq⟩ := ih c (by omega) hl
    refine ⟨c'.set (first + m) p1[first + m], ?_, by simpa using hl', ?_⟩
    · rw [List.range'_1_concat, List.foldlM_append, hc']
      simp only [Option.bind_eq_bind, Option.bind_some, List.foldlM_cons, List.foldlM_nil,
        List.getElem?_eq_getElem (show first + m < p1.length by omega), if_pos (show first + m < c'.length by omega)]
      rfl
    · intro q
      rw [List.getElem?_set, hq q]
      by_cases hqe : first + m = q
      · subst hqe
        rw [if_pos rfl, if_pos (by omega), if_pos (by omega), List.getElem?_eq_getElem (by omega)]
      · rw [if_neg hqe]
        by_cases hr : first ≤ q ∧ q < first + m
        · rw [if_pos hr, if_pos (by omega)]
        · rw [if_neg hr, if_neg (by omega)]

/-- The walk of partially mapped crossover ends outside of the range, at the end of the chain. -/
theorem pmxWalk_spec (h : PermParents p1 p2) (h2 : last ≤ p1.length) {lookup : α → Option Nat} (hlk : LookupFor p2 lookup)
    {i : Nat} {gi : α} (hgi : p2[i]? = some gi) (hnd : gi ∉ segment p1 first last) :
    ∀ (fuel pos : Nat) (path : List Nat), IsPath p2 p1 i pos path → PmxChain p1 p2 first last i pos →
      p1.length + 1 < fuel + path.length →
      ∃ k, pmxWalk lookup p1 first last fuel pos = some k ∧ PmxChain p1 p2 first last i k ∧ (k < first ∨ last ≤ k) ∧
        k < p1.length := by
  intro fuel
  induction fuel with
  | zero =>
    intro pos path hp _ hf
    have := hp.length_le
    rw [h.2.length_eq] at this
    omega
  | succ fuel ih =>
    intro pos path hp hch hf
    have hpos2 : pos < p2.length := hp.lt pos hp.last
    have hpos : pos < p1.length := by rw [← h.2.length_eq]; exact hpos2
    by_cases hr : first ≤ pos ∧ pos < last
    · obtain ⟨k, hk⟩ := Nxt.exists (permParents_symm h) hpos2
      have hget : p1[pos]? = some p1[pos] := List.getElem?_eq_getElem hpos
      have hkg : p2[k]? = some p1[pos] := by rw [hk.2.2, hget]
      have hki : k ≠ i := by
        rintro rfl
        rw [hgi, Option.some.injEq] at hkg
        exact hnd (mem_segment_iff.2 ⟨pos, hr.1, hr.2, by rw [hget, hkg]⟩)
      obtain ⟨_, hp'⟩ := hp.extend (permParents_symm h) hk hki
      obtain ⟨k', he, hrest⟩ := ih k (path ++ [k]) hp' (PmxChain.step hch hr.1 hr.2 hk.2.1 hk.2.2) (by simp; omega)
      refine ⟨k', ?_, hrest⟩
      simp only [pmxWalk, hr, and_self, if_true, hget, Option.bind_eq_bind, Option.bind_some, hlk k _ hkg]
      exact he
    · refine ⟨pos, ?_, hch, by omega, hpos⟩
      simp only [pmxWalk, hr, if_false]
      rfl

/-- A chain that starts in the range and ends outside of it ends at a gene of the segment. -/
theorem pmxChain_end_direct {i k : Nat} (hch : PmxChain p1 p2 first last i k) (hne : i ≠ k) :
    ∃ g, g ∈ segment p1 first last ∧ p2[k]? = some g := by
  cases hch with
  | refl => exact absurd rfl hne
  | step h1 h2 h3 h4 h5 =>
    rw [List.getElem?_eq_getElem h4] at h5
    exact ⟨_, mem_segment_iff.2 ⟨_, h2, h3, h5.symm⟩, List.getElem?_eq_getElem h4⟩

theorem PmxChain.start_unique (h : PermParents p1 p2) (h2 : last ≤ p1.length) {i k : Nat}
    (hch : PmxChain p1 p2 first last i k) : ∀ {i' : Nat}, PmxChain p1 p2 first last i' k →
      (∀ g, p2[i]? = some g → g ∉ segment p1 first last) → (∀ g, p2[i']? = some g → g ∉ segment p1 first last) → i = i' := by
  induction hch with
  | refl =>
    intro i' hch' h1 _
    by_contra hne
    obtain ⟨g, hg1, hg2⟩ := pmxChain_end_direct hch' (Ne.symm hne)
    exact h1 g hg2 hg1
  | step hc hj1 hj2 hk he ih =>
    intro i' hch' h1 hs2
    cases hch' with
    | refl =>
      rename_i j k
      obtain ⟨g, hg1, hg2⟩ := pmxChain_end_direct (PmxChain.step hc hj1 hj2 hk he) (by
        rintro rfl
        rw [List.getElem?_eq_getElem hk] at he
        exact h1 _ (List.getElem?_eq_getElem hk) (mem_segment_iff.2 ⟨_, hj1, hj2, he.symm⟩))
      exact absurd hg1 (hs2 g hg2)
    | step hc' hj1' hj2' hk' he' =>
      rename_i j k j'
      have : j = j' := getElem?_inj' h.1 (by omega) (he.symm.trans he')
      subst this
      exact ih hc' h1 hs2

theorem pmxLoop_spec [DecidableEq α] (h : PermParents p1 p2) (h2 : last ≤ p1.length) {direct : α → Option Bool}
    (hd : DirectFor (segment p1 first last) p2 direct) {lookup : α → Option Nat} (hlk : LookupFor p2 lookup) :
    ∀ (idxs : List Nat) (c : List α), idxs.Nodup → (∀ i ∈ idxs, first ≤ i ∧ i < last) → c.length = p1.length →
      ∃ c', pmxLoop direct lookup p1 p2 first last idxs c = some c' ∧ c'.length = p1.length ∧
        (∀ i g, i ∈ idxs → p2[i]? = some g → g ∉ segment p1 first last →
          ∃ k, PmxChain p1 p2 first last i k ∧ (k < first ∨ last ≤ k) ∧ c'[k]? = some g) ∧
        (∀ q, (∀ i g, i ∈ idxs → p2[i]? = some g → g ∉ segment p1 first last → PmxChain p1 p2 first last i q →
          first ≤ q ∧ q < last) → c'[q]? = c[q]?) := by
  intro idxs
  induction idxs with
  | nil => intro c _ _ hl; exact ⟨c, rfl, hl, by simp, by simp⟩
  | cons i rest ih =>
    intro c hn hb hl
    rw [List.nodup_cons] at hn
    have hir := hb i List.mem_cons_self
    have hil : i < p2.length := by rw [h.2.length_eq]; omega
    have hget : p2[i]? = some p2[i] := List.getElem?_eq_getElem hil
    have hdi := hd p2[i] (List.getElem_mem hil)
    by_cases hg : p2[i] ∈ segment p1 first last
    · obtain ⟨c', hc', hl', hA, hB⟩ := ih c hn.2 (fun j hj => hb j (List.mem_cons_of_mem _ hj)) hl
      refine ⟨c', ?_, hl', ?_, ?_⟩
      · simp [pmxLoop, hget, hdi, hg, hc']
      · intro j g hj hjg hng
        rcases List.mem_cons.1 hj with rfl | hj
        · rw [hget, Option.some.injEq] at hjg
          exact absurd (hjg ▸ hg) hng
        · exact hA j g hj hjg hng
      · intro q hq
        exact hB q (fun j g hj => hq j g (List.mem_cons_of_mem _ hj))
    · obtain ⟨k, hw, hch, hout, hkl⟩ := pmxWalk_spec h h2 hlk hget hg (p1.length + 2) i [i] (isPath_single hil) (PmxChain.refl i)
        (by simp)
      obtain ⟨c', hc', hl', hA, hB⟩ := ih (c.set k p2[i]) hn.2 (fun j hj => hb j (List.mem_cons_of_mem _ hj)) (by simpa using hl)
      refine ⟨c', ?_, hl', ?_, ?_⟩
      · simp only [pmxLoop, hget, hdi, hg, decide_false, Option.bind_eq_bind, Option.bind_some, Bool.false_eq_true, if_false, hw]
        rw [if_pos (by omega)]
        exact hc'
      · intro j g hj hjg hng
        rcases List.mem_cons.1 hj with rfl | hj
        · refine ⟨k, hch, hout, ?_⟩
          rw [hB k, List.getElem?_set_self (by omega), ← hget, hjg]
          intro i' g' hi' hg' hng' hch'
          have := PmxChain.start_unique h h2 hch hch' (by intro x hx; rw [hjg, Option.some.injEq] at hx; exact hx ▸ hng)
            (by intro x hx; rw [hg', Option.some.injEq] at hx; exact hx ▸ hng')
          subst this
          exact absurd hi' hn.1
        · exact hA j g hj hjg hng
      · intro q hq
        rw [hB q (fun j g hj => hq j g (List.mem_cons_of_mem _ hj))]
        apply List.getElem?_set_ne
        rintro rfl
        have := hq i p2[i] List.mem_cons_self hget hg hch
        omega

theorem pmxWith_spec [DecidableEq α] (h : PermParents p1 p2) (h1 : first ≤ last) (h2 : last ≤ p1.length)
    {direct : α → Option Bool} (hd : DirectFor (segment p1 first last) p2 direct) {lookup : α → Option Nat}
    (hlk : LookupFor p2 lookup) :
    ∃ c0 child, pmxCopy p1 first last p2 = some c0 ∧
      pmxLoop direct lookup p1 p2 first last (List.range' first (last - first)) c0 = some child ∧
      IsPmxChild p1 p2 first last child := by
  have hlen := h.2.length_eq
  obtain ⟨c0, hc0, hl0, hq0⟩ := pmxCopy_spec p1 first (last - first) p2 (by omega) hlen
  obtain ⟨child, hc, hl, hA, hB⟩ := pmxLoop_spec h h2 hd hlk (List.range' first (last - first)) c0 List.nodup_range'
    (by intro i hi; rw [List.mem_range'_1] at hi; omega) hl0
  have hrange : ∀ i, first ≤ i → i < last → child[i]? = p1[i]? := by
    intro i hi1 hi2
    rw [hB i (fun _ _ _ _ _ _ => ⟨hi1, hi2⟩), hq0 i, if_pos (by omega)]
  have houter : ∀ i, i < p2.length → (i < first ∨ last ≤ i) → (∀ g, p2[i]? = some g → g ∉ segment p1 first last) →
      child[i]? = p2[i]? := by
    intro i hi ho hg
    rw [hB i, hq0 i, if_neg (by omega)]
    intro j g hj hjg hng hch
    rw [List.mem_range'_1] at hj
    obtain ⟨x, hx1, hx2⟩ := pmxChain_end_direct hch (by omega)
    exact absurd hx1 (hg x hx2)
  have hmoved : ∀ i g, first ≤ i → i < last → p2[i]? = some g → g ∉ segment p1 first last →
      ∃ k, PmxChain p1 p2 first last i k ∧ (k < first ∨ last ≤ k) ∧ child[k]? = some g :=
    fun i g hi1 hi2 hg hng => hA i g (by rw [List.mem_range'_1]; omega) hg hng
  refine ⟨c0, child, hc0, hc, ?_, ⟨hl, hrange⟩, ?_, ?_⟩
  · apply perm_of_subset h.1 _ (le_of_eq hl)
    intro g hg
    by_cases hs : g ∈ segment p1 first last
    · obtain ⟨i, hi1, hi2, hi3⟩ := mem_segment_iff.1 hs
      exact List.mem_of_getElem? (by rw [hrange i hi1 hi2, hi3])
    · obtain ⟨j, hj⟩ := List.mem_iff_getElem?.1 (h.2.mem_iff.2 hg)
      have hjl := (List.getElem?_eq_some_iff.1 hj).1
      by_cases hr : first ≤ j ∧ j < last
      · obtain ⟨k, _, _, hk⟩ := hmoved j g hr.1 hr.2 hj hs
        exact List.mem_of_getElem? hk
      · exact List.mem_of_getElem? (by
          rw [houter j hjl (by omega) (by intro x hx; rw [hj, Option.some.injEq] at hx; exact hx ▸ hs), hj])
  · rw [genesIn_eq_segment]; exact houter
  · rw [genesIn_eq_segment]; exact hmoved

/-- The specification of partially mapped crossover determines the child. -/
theorem pmx_unique [DecidableEq α] (h : PermParents p1 p2) (h2 : last ≤ p1.length) {c c' : List α}
    (hc : IsPmxChild p1 p2 first last c) (hc' : IsPmxChild p1 p2 first last c') : c = c' := by
  have hn : c.Nodup := hc.1.nodup_iff.2 h.1
  have hn' : c'.Nodup := hc'.1.nodup_iff.2 h.1
  -- ends of a chain are unique
  have hend : ∀ {i k : Nat}, PmxChain p1 p2 first last i k → (k < first ∨ last ≤ k) → ∀ {k'}, PmxChain p1 p2 first last i k' →
      (PmxChain p1 p2 first last k' k) := by
    intro i k hk hout k' hk'
    induction hk' with
    | refl => exact hk
    | step hc1 hj1 hj2 hkl he ih =>
      rename_i j m
      -- the chain from j to k has a first step, which goes to m
      have hfirst : ∀ {a b : Nat}, PmxChain p1 p2 first last a b → a ≠ b →
          ∀ m, m < p2.length → p2[m]? = p1[a]? → PmxChain p1 p2 first last m b := by
        intro a b hab
        induction hab with
        | refl => intro hne; exact absurd rfl hne
        | step hc2 hq1 hq2 hq3 hq4 ih2 =>
          rename_i x y
          intro _ m hm hme
          by_cases hax : a = x
          · subst hax
            have : m = y := getElem?_inj' (h.2.nodup_iff.2 h.1) hm (hme.trans hq4.symm)
            subst this
            exact PmxChain.refl _
          · exact PmxChain.step (ih2 hax m hm hme) hq1 hq2 hq3 hq4
      exact hfirst ih (by omega) m hkl he
  have hend' : ∀ {k k' : Nat}, (k < first ∨ last ≤ k) → PmxChain p1 p2 first last k k' → k = k' := by
    intro k k' hk hch
    induction hch with
    | refl => rfl
    | step _ hj1 hj2 _ _ ih =>
      subst ih; omega
  -- it is enough that each gene has the same position in both
  have hpos : ∀ (q : Nat) (g : α), c[q]? = some g → c'[q]? = some g := by
    intro q g hq
    have hgm : g ∈ p1 := hc.1.mem_iff.1 (List.mem_of_getElem? hq)
    have hql := (List.getElem?_eq_some_iff.1 hq).1
    -- the position of `g` in `c` is determined
    have pin : ∀ r, c[r]? = some g → r = q := fun r hr =>
      (getElem?_inj' hn hql (hq.trans hr.symm)).symm
    by_cases hs : g ∈ segment p1 first last
    · obtain ⟨i, hi1, hi2, hi3⟩ := mem_segment_iff.1 hs
      have := pin i (by rw [hc.2.1.2 i hi1 hi2, hi3])
      subst this
      rw [hc'.2.1.2 i hi1 hi2, hi3]
    · obtain ⟨j, hj⟩ := List.mem_iff_getElem?.1 (h.2.mem_iff.2 hgm)
      have hjl := (List.getElem?_eq_some_iff.1 hj).1
      have hs' : g ∉ genesIn p1 first last := by rw [genesIn_eq_segment]; exact hs
      by_cases hr : first ≤ j ∧ j < last
      · obtain ⟨k, hk1, hk2, hk3⟩ := hc.2.2.2 j g hr.1 hr.2 hj hs'
        obtain ⟨k', hk1', hk2', hk3'⟩ := hc'.2.2.2 j g hr.1 hr.2 hj hs'
        have e1 := pin k hk3
        have e2 : k' = k := hend' hk2' (hend hk1 hk2 hk1')
        rw [← e1, ← e2]; exact hk3'
      · have hw : ∀ x, p2[j]? = some x → x ∉ genesIn p1 first last := by
          intro x hx; rw [hj, Option.some.injEq] at hx; exact hx ▸ hs'
        have := pin j (by rw [hc.2.2.1 j hjl (by omega) hw, hj])
        subst this
        rw [hc'.2.2.1 j hjl (by omega) hw, hj]
  apply List.ext_getElem?
  intro q
  cases hq : c[q]? with
  | some g => exact (hpos q g hq).symm
  | none =>
    have : c.length ≤ q := List.getElem?_eq_none_iff.1 hq
    rw [List.getElem?_eq_none_iff.2]
    rw [hc'.1.length_eq, ← hc.1.length_eq]; exact this

end Pmx

end

end Gapp.Model
