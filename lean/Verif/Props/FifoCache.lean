import Verif.Proofs.FifoCache
/-!
# C03: the fitness cache is a bounded map with FIFO eviction
-/

namespace Gapp.Props
open Gapp.Model Gapp.Model.FifoCache
variable {κ ν : Type} [DecidableEq κ]

/-- **C03.** After any history of operations on a cache of capacity `cap` – for any implementation
defined surplus of hash buckets – no step is undefined, and every observation (`get`, `contains`,
`size`, `capacity`, order of eviction) is that of the ideal FIFO map; the size never exceeds the
capacity and no key is stored twice. -/
theorem C03_fifo_cache_is_bounded_fifo_map (cap extra : Nat) (ops : List (Op κ ν)) :
    ∃ c, run (init cap extra) ops = some c ∧
      (∀ k, c.get k = (Spec.FifoMap.run ⟨cap, []⟩ ops).lookup k) ∧
      (∀ k, c.contains k = true ↔ k ∈ (Spec.FifoMap.run ⟨cap, []⟩ ops).entries.map (·.1)) ∧
      c.order.contents = some ((Spec.FifoMap.run ⟨cap, []⟩ ops).entries.map (·.1)) ∧
      c.size = (Spec.FifoMap.run ⟨cap, []⟩ ops).entries.length ∧
      c.capacity = (Spec.FifoMap.run ⟨cap, []⟩ ops).cap ∧
      c.size ≤ c.capacity ∧
      ((Spec.FifoMap.run ⟨cap, []⟩ ops).entries.map (·.1)).Nodup := by
  obtain ⟨c, h1, h2⟩ := Repr.run ops (repr_init (κ := κ) (ν := ν) cap extra)
  refine ⟨c, h1, h2.get, ?_, h2.order.contents, ?_, h2.capacity, ?_, h2.nodup⟩
  · intro k; unfold contains; rw [h2.map_eq]; exact any_iff _ _
  · unfold size; rw [h2.map_eq]
  · unfold size; rw [h2.map_eq, h2.capacity]; exact h2.le_cap

/-- Non-vacuity: eviction, overwriting and a range insertion in one history. -/
example : ((run (init 2 0 : FifoCache Nat String)
    [.insert 1 "a", .insert 2 "b", .insert 1 "a'", .insert 3 "c"]).map
      (fun c => (c.get 1, c.get 2, c.get 3, c.size))) = some (none, some "b", some "c", 2) := by
  decide

/-- A copy of a reachable cache (copy constructor) has the same observable state. -/
theorem C03_copy_is_equal (cap extra extra' : Nat) (ops : List (Op κ ν)) (c : FifoCache κ ν)
    (hc : run (init cap extra) ops = some c) :
    ∃ c', c.copyOf extra' = some c' ∧ (∀ k, c'.get k = c.get k) ∧
      c'.order.contents = c.order.contents ∧ c'.capacity = c.capacity := by
  obtain ⟨c0, h1, h2⟩ := Repr.run ops (repr_init (κ := κ) (ν := ν) cap extra)
  rw [hc] at h1; cases h1
  obtain ⟨c', h3, h4⟩ := h2.copyOf extra'
  exact ⟨c', h3, fun k => by rw [h4.get, h2.get], by rw [h4.order.contents, h2.order.contents],
    by rw [h4.capacity, h2.capacity]⟩

example : ((run (init 2 0 : FifoCache Nat String) [.insert 1 "a", .insert 2 "b", .insert 3 "c"]).bind
    (fun c => c.copyOf 5)).map (fun c => (c.get 1, c.get 2, c.get 3))
    = some (none, some "b", some "c") := by decide

/-! Facts about the ideal map itself, in terms of the history, so that the specification can be
read without knowing its definition. -/

theorem lookup_map_update (l : List (κ × ν)) (k k' : κ) (v : ν) :
    (l.map (fun p => if p.1 = k then (k, v) else p)).lookup k' =
      if k' = k then (l.lookup k').map (fun _ => v) else l.lookup k' := by
  induction l with
  | nil => simp
  | cons p l ih =>
    obtain ⟨a, b⟩ := p
    by_cases h : a = k
    · subst h
      by_cases h' : k' = a
      · subst h'; simp [List.lookup]
      · have : (k' == a) = false := by simp [h']
        simp [List.lookup, this, ih, h']
    · by_cases h' : k' = a
      · subst h'; simp [List.lookup, h]
      · have : (k' == a) = false := by simp [h']
        simp [List.lookup, this, ih, h]

theorem lookup_eq_none_of_not_mem (l : List (κ × ν)) (k : κ) (h : k ∉ l.map (·.1)) :
    l.lookup k = none := by
  rw [List.lookup_eq_none_iff]
  intro p hp
  have : k ≠ p.1 := by intro e; apply h; rw [e]; exact List.mem_map_of_mem hp
  simpa using this

/-- Inserting: the new key has the new value, another key keeps its value or is evicted. -/
theorem spec_insert_lookup (d : Spec.FifoMap κ ν) (k k' : κ) (v : ν)
    (hnd : (d.entries.map (·.1)).Nodup) (hle : d.entries.length ≤ d.cap) :
    (d.insert k v).lookup k' = none ∨
      (d.insert k v).lookup k' = if k' = k then some v else d.lookup k' := by
  unfold Spec.FifoMap.insert Spec.FifoMap.lookup
  by_cases hc : d.cap = 0
  · have : d.entries = [] := List.length_eq_zero_iff.mp (by omega)
    simp [hc, this]
  · rw [if_neg hc]
    by_cases hm : k ∈ d.entries.map (·.1)
    · rw [if_pos hm]; simp only []; rw [lookup_map_update]
      by_cases h : k' = k
      · subst h
        cases hl : d.entries.lookup k' with
        | none => left; simp
        | some w => right; simp
      · right; simp [h]
    · rw [if_neg hm]
      by_cases hf : d.entries.length = d.cap
      · rw [if_pos hf]; simp only []; rw [List.lookup_append]
        cases hd : d.entries with
        | nil => rw [hd] at hf; simp at hf; omega
        | cons p rest =>
          obtain ⟨k0, v0⟩ := p
          rw [hd] at hm hnd
          simp only [List.map_cons, List.mem_cons, not_or] at hm
          simp only [List.map_cons, List.nodup_cons] at hnd
          simp only [List.tail_cons]
          by_cases h : k' = k
          · subst h
            right; rw [lookup_eq_none_of_not_mem _ _ hm.2]; simp [List.lookup]
          · have hb : (k' == k) = false := by simp [h]
            by_cases h0 : k' = k0
            · subst h0
              left; rw [lookup_eq_none_of_not_mem _ _ hnd.1]; simp [List.lookup, hb]
            · have hb0 : (k' == k0) = false := by simp [h0]
              right; simp [List.lookup, hb, hb0, h]
      · rw [if_neg hf]; simp only []; rw [List.lookup_append]
        by_cases h : k' = k
        · subst h; right; rw [lookup_eq_none_of_not_mem _ _ hm]; simp [List.lookup]
        · have hb : (k' == k) = false := by simp [h]
          right; simp [List.lookup, hb, h]

/-- **C03 (history form).** In a history of insertions, `get k` returns nothing (never inserted or
evicted) or the value most recently inserted for `k`. -/
theorem C03_get_returns_latest (cap extra : Nat) (history : List (κ × ν)) (c : FifoCache κ ν)
    (hc : run (init cap extra) (history.map (fun p => Op.insert p.1 p.2)) = some c) (k : κ) :
    c.get k = none ∨ c.get k = Spec.lastInserted k history := by
  have key : ∀ h : List (κ × ν), ∀ k,
      (Spec.FifoMap.run ⟨cap, []⟩ (h.map (fun p => Op.insert p.1 p.2))).lookup k = none ∨
      (Spec.FifoMap.run ⟨cap, []⟩ (h.map (fun p => Op.insert p.1 p.2))).lookup k
        = Spec.lastInserted k h := by
    intro h
    induction h using ListAux.snoc_induction with
    | nil => intro k; left; rfl
    | append_singleton h p ih =>
      intro k
      obtain ⟨c', h1, h2⟩ := Repr.run (h.map (fun p => Op.insert p.1 p.2))
        (repr_init (κ := κ) (ν := ν) cap extra)
      have e : Spec.FifoMap.run ⟨cap, []⟩ ((h ++ [p]).map (fun p => Op.insert p.1 p.2))
          = (Spec.FifoMap.run ⟨cap, []⟩ (h.map (fun p => Op.insert p.1 p.2))).insert p.1 p.2 := by
        simp [Spec.FifoMap.run, Spec.FifoMap.step]
      rw [e]
      rcases spec_insert_lookup _ p.1 k p.2 h2.nodup h2.le_cap with h3 | h3
      · exact Or.inl h3
      · rw [h3]
        unfold Spec.lastInserted
        rw [List.reverse_append, List.reverse_singleton, List.singleton_append]
        by_cases hk : k = p.1
        · right; simp [hk, List.lookup]
        · have hb : (k == p.1) = false := by simp [hk]
          simp only [hk, if_false, List.lookup, hb]
          exact ih k
  obtain ⟨c0, h1, h2⟩ := Repr.run (history.map (fun p => Op.insert p.1 p.2))
    (repr_init (κ := κ) (ν := ν) cap extra)
  rw [hc] at h1; cases h1
  rw [h2.get]; exact key history k

/-- The hypothesis of `C03_get_returns_latest` is met by every history. -/
example (cap extra : Nat) (history : List (κ × ν)) :
    ∃ c, run (init cap extra) (history.map (fun p => Op.insert p.1 p.2)) = some c := by
  obtain ⟨c, h, -⟩ := C03_fifo_cache_is_bounded_fifo_map cap extra
    (history.map (fun p => Op.insert p.1 p.2))
  exact ⟨c, h⟩

/-- **C03 (no early eviction).** A freshly inserted key stays resident, with its value, while at most
`cap - 1` further insertions of other keys happen, whatever was in the cache before. -/
theorem C03_fresh_key_survives (d : Spec.FifoMap κ ν) (k : κ) (v : ν)
    (hcap : 0 < d.cap) (hle : d.entries.length ≤ d.cap) (hnd : (d.entries.map (·.1)).Nodup)
    (hfresh : k ∉ d.entries.map (·.1)) (later : List (κ × ν)) (hk : k ∉ later.map (·.1))
    (hlen : later.length < d.cap) :
    (later.foldl (fun d p => d.insert p.1 p.2) (d.insert k v)).lookup k = some v := by
  -- invariant: the entries are `pre ++ (k, v) :: post` with `post` no longer than the number of
  -- insertions since, and all the other facts about the map
  suffices H : ∀ (later : List (κ × ν)) (d : Spec.FifoMap κ ν) (pre post : List (κ × ν)),
      d.entries = pre ++ (k, v) :: post → d.entries.length ≤ d.cap →
      k ∉ pre.map (·.1) → k ∉ later.map (·.1) → post.length + later.length < d.cap →
      (later.foldl (fun d p => d.insert p.1 p.2) d).lookup k = some v by
    unfold Spec.FifoMap.insert
    rw [if_neg (by omega), if_neg hfresh]
    by_cases hf : d.entries.length = d.cap
    · rw [if_pos hf]
      refine H later _ d.entries.tail [] rfl ?_ ?_ hk (by simpa using hlen)
      · simp; omega
      · intro h; apply hfresh; rw [List.map_tail] at h; exact List.mem_of_mem_tail h
    · rw [if_neg hf]
      exact H later _ d.entries [] rfl (by simp; omega) hfresh hk (by simpa using hlen)
  intro later
  induction later with
  | nil =>
    intro d pre post he _ hpre _ _
    simp only [List.foldl_nil, Spec.FifoMap.lookup, he]
    rw [List.lookup_append, lookup_eq_none_of_not_mem _ _ hpre]; simp [List.lookup]
  | cons p later ih =>
    intro d pre post he hle hpre hk hlen
    simp only [List.map_cons, List.mem_cons, not_or, List.length_cons] at hk hlen
    simp only [List.foldl_cons]
    have hcap0 : d.cap ≠ 0 := by omega
    unfold Spec.FifoMap.insert
    rw [if_neg hcap0]
    by_cases hm : p.1 ∈ d.entries.map (·.1)
    · rw [if_pos hm]
      refine ih _ (pre.map (fun q => if q.1 = p.1 then (p.1, p.2) else q))
        (post.map (fun q => if q.1 = p.1 then (p.1, p.2) else q)) ?_ ?_ ?_ hk.2 ?_
      · simp [he, hk.1]
      · simpa using hle
      · intro h
        apply hpre
        simp only [List.map_map, List.mem_map, Function.comp] at h ⊢
        obtain ⟨q, hq, e⟩ := h
        refine ⟨q, hq, ?_⟩
        split at e
        · exact absurd e.symm hk.1
        · exact e
      · simp only [List.length_map]; omega
    · rw [if_neg hm]
      by_cases hf : d.entries.length = d.cap
      · rw [if_pos hf]
        cases pre with
        | nil => rw [he] at hf; simp at hf; omega
        | cons q pre' =>
          refine ih _ pre' (post ++ [p]) ?_ ?_ ?_ hk.2 ?_
          · simp [he]
          · simp; omega
          · simp only [List.map_cons, List.mem_cons, not_or] at hpre; exact hpre.2
          · simp; omega
      · rw [if_neg hf]
        refine ih _ pre (post ++ [p]) ?_ ?_ hpre hk.2 ?_
        · simp [he]
        · simp; omega
        · simp; omega

/-- Non-vacuity: key 9 survives two insertions in a cache of capacity 3 and is evicted by a third. -/
example : (Spec.FifoMap.run (κ := Nat) (ν := Nat) ⟨3, []⟩
      [.insert 1 1, .insert 2 2, .insert 3 3, .insert 9 9, .insert 4 4, .insert 5 5]).lookup 9 = some 9 ∧
    (Spec.FifoMap.run (κ := Nat) (ν := Nat) ⟨3, []⟩
      [.insert 1 1, .insert 2 2, .insert 3 3, .insert 9 9, .insert 4 4, .insert 5 5, .insert 6 6]).lookup 9
      = none := by decide

end Gapp.Props
