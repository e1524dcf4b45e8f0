import Verif.Spec.CacheVars
import Verif.Proofs.FifoCache
import Verif.Proofs.SmallVectorThrow
import Mathlib.Logic.Equiv.Basic
/-!
# Proofs about several caches
-/

namespace Gapp.Model
open Gapp.Spec
open Spec.DequeVars (throws)
variable {κ ν : Type} [DecidableEq κ]

/-- A cache that represents an ideal map. -/
structure CvOk (c : CvCache κ ν) (q : FifoMap κ ν) : Prop where
  nodes : c.nodes.map (·.2) = q.entries
  order : c.order.Repr (c.nodes.map (·.1))
  cap : c.order.slots.length = q.cap
  buckets : q.cap + 1 ≤ c.buckets
  nodup : (q.entries.map (·.1)).Nodup
  ids : (c.nodes.map (·.1)).Nodup
  valid : c.valid = true

/-- Nodes are kept or new. -/
def CvNew (next next' : Nat) (c c' : CvCache κ ν) : Prop :=
  next ≤ next' ∧ ∀ p ∈ c'.nodes, (∃ r ∈ c.nodes, r.1 = p.1) ∨ (next ≤ p.1 ∧ p.1 < next')

theorem CvNew.refl (next : Nat) (c : CvCache κ ν) : CvNew next next c c := ⟨Nat.le_refl _, fun p hp => Or.inl ⟨p, hp, rfl⟩⟩

theorem CvNew.trans {n1 n2 n3 : Nat} {a b c : CvCache κ ν} (h : CvNew n1 n2 a b) (h' : CvNew n2 n3 b c) : CvNew n1 n3 a c := by
  refine ⟨Nat.le_trans h.1 h'.1, ?_⟩
  intro p hp
  have := h.1
  have := h'.1
  rcases h'.2 p hp with ⟨r, hr, e⟩ | h1
  · rcases h.2 r hr with ⟨t, ht, e'⟩ | h2
    · exact Or.inl ⟨t, ht, e'.trans e⟩
    · right; rw [← e]; omega
  · right; omega

theorem CvNew.fresh {n n' : Nat} {a b : CvCache κ ν} (h : CvNew n n' a b) (hf : ∀ p ∈ a.nodes, p.1 < n) : ∀ p ∈ b.nodes, p.1 < n' := by
  intro p hp
  have := h.1
  rcases h.2 p hp with ⟨r, hr, e⟩ | h1
  · have := hf r hr; omega
  · exact h1.2

theorem CvOk.length {c : CvCache κ ν} {q : FifoMap κ ν} (h : CvOk c q) : c.nodes.length = q.entries.length := by
  rw [← h.nodes, List.length_map]

theorem CvOk.le_cap {c : CvCache κ ν} {q : FifoMap κ ν} (h : CvOk c q) : q.entries.length ≤ q.cap := by
  have := h.order.le_cap; rw [h.cap] at this; rw [← h.length]; simpa using this

theorem cvHas_iff (nodes : List (Nat × κ × ν)) (k : κ) : cvHas nodes k = true ↔ k ∈ (nodes.map (·.2)).map (·.1) := by
  simp [cvHas, List.any_eq_true]

theorem CvOk.has {c : CvCache κ ν} {q : FifoMap κ ν} (h : CvOk c q) (k : κ) : cvHas c.nodes k = true ↔ k ∈ q.entries.map (·.1) := by
  rw [cvHas_iff, h.nodes]

theorem CvOk.free {c : CvCache κ ν} {q : FifoMap κ ν} (h : CvOk c q) : cvFree c = true := by
  have := h.le_cap; have := h.buckets; have := h.length
  simp only [cvFree, decide_eq_true_eq]; omega

theorem CvOk.assign {c : CvCache κ ν} {q : FifoMap κ ν} (h : CvOk c q) (k : κ) (f : ν → ν) :
    CvOk { c with nodes := cvAssign c.nodes k f } { q with entries := q.entries.map (fun p => if p.1 = k then (k, f p.2) else p) } := by
  have e1 : (cvAssign c.nodes k f).map (·.1) = c.nodes.map (·.1) := by
    unfold cvAssign; rw [List.map_map]; apply List.map_congr_left; intro p _; simp only [Function.comp]; split <;> rfl
  have e2 : (q.entries.map (fun p => if p.1 = k then (k, f p.2) else p)).map (·.1) = q.entries.map (·.1) := by
    rw [List.map_map]; apply List.map_congr_left; intro p _; simp only [Function.comp]
    split
    · rename_i hp; exact hp.symm
    · rfl
  refine ⟨?_, by simpa only [e1] using h.order, h.cap, h.buckets, by simpa only [e2] using h.nodup, by simpa only [e1] using h.ids, h.valid⟩
  simp only [← h.nodes, cvAssign, List.map_map]
  apply List.map_congr_left; intro p _; simp only [Function.comp]
  split
  · rename_i hp; rw [hp]
  · rfl

theorem cvAssign_new (next : Nat) (c : CvCache κ ν) (k : κ) (f : ν → ν) : CvNew next next c { c with nodes := cvAssign c.nodes k f } := by
  refine ⟨Nat.le_refl _, ?_⟩
  intro p hp
  simp only [cvAssign, List.mem_map] at hp
  obtain ⟨r, hr, e⟩ := hp
  left
  refine ⟨r, hr, ?_⟩
  rw [← e]; split <;> rfl

theorem map_absent (l : List (κ × ν)) (k : κ) (f : κ × ν → κ × ν) (h : k ∉ l.map (·.1)) : l.map (fun p => if p.1 = k then f p else p) = l := by
  conv => rhs; rw [← List.map_id l]
  apply List.map_congr_left
  intro p hp
  rw [if_neg]
  · rfl
  · intro e; exact h (e ▸ List.mem_map_of_mem hp)

/-- Inserting one element. -/
theorem cvInsertOne_ok (E : CvEnv ν) {c : CvCache κ ν} {q : FifoMap κ ν} (h : CvOk c q) (hc : q.cap ≠ 0) {next : Nat} (hfresh : ∀ p ∈ c.nodes, p.1 < next) (assign : Bool) (k : κ) (v : ν)
    (limit : Option Nat) (ha : assign = true ∨ k ∉ q.entries.map (·.1)) :
    ∃ next' c', cvInsertOne E assign next c k v limit = some (next', c', (q.tryPut E.torn k v limit).2.1, (q.tryPut E.torn k v limit).2.2) ∧
      CvOk c' (q.tryPut E.torn k v limit).1 ∧ (q.tryPut E.torn k v limit).1.cap = q.cap ∧ CvNew next next' c c' := by
  unfold cvInsertOne FifoMap.tryPut
  rw [if_neg hc]
  by_cases hk : k ∈ q.entries.map (·.1)
  · have ha' : assign = true := by rcases ha with ha | ha; exacts [ha, absurd hk ha]
    rw [if_pos ((h.has k).mpr hk), if_pos ha']
    rcases cbSpend_cases limit with ⟨hs, hl, ht⟩ | ⟨l, hs, ht⟩
    · rw [hs, if_pos (ht 0)]
      exact ⟨next, _, rfl, h.assign k _, rfl, cvAssign_new _ _ _ _⟩
    · have e := (ht 0).1
      have e2 := (ht 0).2
      rw [throws_zero] at e
      rw [hs, if_neg (by rw [e]; simp)]
      refine ⟨next, _, ?_, ?_, ?_, cvAssign_new _ c k (fun _ => v)⟩
      · simp only [Option.some.injEq, Prod.mk.injEq, true_and]
        have : IdealVec.left l 0 = l := by cases l <;> simp [IdealVec.left]
        rw [this] at e2
        simpa [IdealVec.left] using e2.symm
      · have := h.assign k (fun _ => v)
        simpa [FifoMap.insert, hc, hk] using this
      · simp [FifoMap.insert, hc, hk]
  · rw [if_neg (by rw [h.has]; exact hk)]
    rcases cbSpend_cases limit with ⟨hs, hl, ht⟩ | ⟨l, hs, ht⟩
    · rw [hs, if_pos (ht 0)]
      refine ⟨next, c, rfl, ?_, rfl, CvNew.refl _ _⟩
      have := map_absent q.entries k (fun p => (k, E.torn p.2 v)) hk
      simp only [this]; exact h
    · have e := (ht 0).1
      have e2 := (ht 0).2
      rw [throws_zero] at e
      have hlim : Option.map (· - 1) limit = l := by
        have : IdealVec.left l 0 = l := by cases l <;> simp [IdealVec.left]
        rw [this] at e2
        simpa [IdealVec.left] using e2
      rw [hs, if_neg (by rw [e]; simp)]
      have hle := h.le_cap
      have hb := h.buckets
      have hlen := h.length
      simp only []
      rw [if_neg (by rw [h.valid]; simp; omega)]
      have hnext : next ∉ c.nodes.map (·.1) := by
        intro hm
        obtain ⟨p, hp, e⟩ := List.mem_map.mp hm
        have := hfresh p hp; omega
      obtain ⟨o, ho1, ho2, ho3⟩ := h.order.pushBack next (by have := h.cap; omega)
      rw [h.cap, List.length_map, hlen] at ho3
      by_cases hfull : q.entries.length = q.cap
      · have hfl : c.order.full = true := by
          simp [CircularBuffer.full, CircularBuffer.capacity, h.order.size_eq, h.cap, hlen, hfull]
        rw [if_pos hfull] at ho3
        obtain ⟨⟨i0, k0, v0⟩, rest, he⟩ : ∃ p rest, c.nodes = p :: rest := by
          cases hd : c.nodes with
          | nil => rw [hd] at hlen; simp at hlen; omega
          | cons p r => exact ⟨p, r, rfl⟩
        have hfront : c.order.front = some i0 := by rw [h.order.front, he]; rfl
        have hnd := h.ids
        have hkd := h.nodup
        rw [he] at hnd hnext
        rw [← h.nodes, he] at hk hkd
        simp only [List.map_cons, List.nodup_cons] at hnd hkd
        simp only [List.map_cons, List.mem_cons, not_or] at hnext hk
        have hfilter : (c.nodes ++ [(next, k, v)]).filter (fun p => decide ¬ p.1 = i0) = rest ++ [(next, k, v)] := by
          rw [he, List.cons_append, List.filter_cons_of_neg (by simp), List.filter_eq_self]
          intro p hp
          rcases List.mem_append.mp hp with hp | hp
          · have : p.1 ≠ i0 := by
              intro e; apply hnd.1; rw [← e]; exact List.mem_map_of_mem hp
            simpa using this
          · simp at hp; rw [hp]; simpa using hnext.1
        have hany : (c.nodes ++ [(next, k, v)]).any (fun p => decide (p.1 = i0)) = true := by rw [he]; simp
        have herase : cvErase (c.nodes ++ [(next, k, v)]) i0 = some (rest ++ [(next, k, v)]) := by
          unfold cvErase; rw [if_pos hany, hfilter]
        simp only [hfl, if_true, hfront, ho1, herase, Option.bind_eq_bind, Option.bind_some, Option.pure_def]
        have hins : q.insert k v = { q with entries := q.entries.tail ++ [(k, v)] } := by
          unfold FifoMap.insert
          rw [if_neg hc, if_neg, if_pos hfull]
          rw [← h.nodes, he]
          simpa using hk
        rw [hins]
        have htail : q.entries.tail = rest.map (·.2) := by rw [← h.nodes, he]; rfl
        refine ⟨next + 1, { c with nodes := rest ++ [(next, k, v)], order := o }, by rw [hlim], ⟨?_, ?_, ?_, hb, ?_, ?_, h.valid⟩, rfl, Nat.le_succ _, ?_⟩
        · simp [htail]
        · simpa [he] using ho3
        · simp only []; rw [ho2]; exact h.cap
        · simp only [htail, List.map_append, List.map_cons, List.map_nil]
          rw [List.nodup_append]
          refine ⟨hkd.2, by simp, ?_⟩
          intro a ha b hb'
          simp only [List.mem_singleton] at hb'
          rintro rfl; exact hk.2 (hb' ▸ ha)
        · simp only [List.map_append, List.map_cons, List.map_nil]
          rw [List.nodup_append]
          refine ⟨hnd.2, by simp, ?_⟩
          intro a ha b hb'
          simp only [List.mem_singleton] at hb'
          rintro rfl; exact hnext.2 (hb' ▸ ha)
        · intro p hp
          rcases List.mem_append.mp hp with hp | hp
          · exact Or.inl ⟨p, by rw [he]; exact List.mem_cons_of_mem _ hp, rfl⟩
          · simp at hp; rw [hp]; right; simp
      · have hfl : ¬ c.order.full = true := by
          simp [CircularBuffer.full, CircularBuffer.capacity, h.order.size_eq, h.cap, hlen, hfull]
        rw [if_neg hfull] at ho3
        rw [if_neg hfl]
        simp only [ho1, Option.bind_eq_bind, Option.bind_some, Option.pure_def]
        have hins : q.insert k v = { q with entries := q.entries ++ [(k, v)] } := by
          unfold FifoMap.insert
          rw [if_neg hc, if_neg hk, if_neg hfull]
        rw [hins]
        refine ⟨next + 1, { c with nodes := c.nodes ++ [(next, k, v)], order := o }, by rw [hlim], ⟨?_, ?_, ?_, hb, ?_, ?_, h.valid⟩, rfl, Nat.le_succ _, ?_⟩
        · simp [h.nodes]
        · simpa using ho3
        · simp only []; rw [ho2]; exact h.cap
        · simp only [List.map_append, List.map_cons, List.map_nil]
          rw [List.nodup_append]
          refine ⟨h.nodup, by simp, ?_⟩
          intro a ha b hb'
          simp only [List.mem_singleton] at hb'
          rintro rfl; exact hk (hb' ▸ ha)
        · simp only [List.map_append, List.map_cons, List.map_nil]
          rw [List.nodup_append]
          refine ⟨h.ids, by simp, ?_⟩
          intro a ha b hb'
          simp only [List.mem_singleton] at hb'
          rintro rfl; exact hnext (hb' ▸ ha)
        · intro p hp
          rcases List.mem_append.mp hp with hp | hp
          · exact Or.inl ⟨p, hp, rfl⟩
          · simp at hp; rw [hp]; right; simp

/-- Inserting a range. -/
theorem cvInsertAll_ok (E : CvEnv ν) (xs : List (κ × ν)) : ∀ {c : CvCache κ ν} {q : FifoMap κ ν} {next : Nat} (limit : Option Nat), CvOk c q → q.cap ≠ 0 → (∀ p ∈ c.nodes, p.1 < next) →
    ∃ next' c', cvInsertAll E next c xs limit = some (next', c', (q.putAll E.torn xs limit).2) ∧ CvOk c' (q.putAll E.torn xs limit).1 ∧ CvNew next next' c c' := by
  induction xs with
  | nil => intro c q next limit h _ _; exact ⟨next, c, rfl, h, CvNew.refl _ _⟩
  | cons p xs ih =>
    intro c q next limit h hc hf
    obtain ⟨n1, c1, h1, h2, h3, h4⟩ := cvInsertOne_ok E h hc hf true p.1 p.2 limit (Or.inl rfl)
    unfold cvInsertAll FifoMap.putAll
    rw [h1]
    generalize q.tryPut E.torn p.1 p.2 limit = r at *
    obtain ⟨e, ok, l⟩ := r
    simp only [Option.bind_eq_bind, Option.bind_some] at *
    cases ok with
    | false => exact ⟨n1, c1, rfl, h2, h4⟩
    | true =>
      obtain ⟨n2, c2, g1, g2, g3⟩ := ih l h2 (by rw [h3]; exact hc) (h4.fresh hf)
      exact ⟨n2, c2, by simpa using g1, g2, h4.trans g3⟩

theorem putAll_cap_zero (torn : ν → ν → ν) (xs : List (κ × ν)) : ∀ (q : FifoMap κ ν) (limit : Option Nat), q.cap = 0 → q.putAll torn xs limit = (q, true) := by
  induction xs with
  | nil => intros; rfl
  | cons p xs ih =>
    intro q limit hc
    unfold FifoMap.putAll FifoMap.tryPut
    rw [if_pos hc]; exact ih q limit hc

theorem cvInsert_ok (E : CvEnv ν) {c : CvCache κ ν} {q : FifoMap κ ν} (h : CvOk c q) {next : Nat} (hfresh : ∀ p ∈ c.nodes, p.1 < next) (assign : Bool) (k : κ) (v : ν)
    (limit : Option Nat) (ha : assign = true ∨ k ∉ q.entries.map (·.1)) :
    ∃ next' c', cvInsert E assign next c k v limit = some (next', c', (q.tryPut E.torn k v limit).2.1) ∧ CvOk c' (q.tryPut E.torn k v limit).1 ∧ CvNew next next' c c' := by
  unfold cvInsert
  rw [if_pos h.free]
  have hcap : c.order.capacity = q.cap := h.cap
  rw [hcap]
  by_cases hc : q.cap = 0
  · rw [if_pos hc]
    refine ⟨next, c, ?_, ?_, CvNew.refl _ _⟩
    · simp [FifoMap.tryPut, hc]
    · simpa [FifoMap.tryPut, hc] using h
  · rw [if_neg hc]
    obtain ⟨n1, c1, h1, h2, h3, h4⟩ := cvInsertOne_ok E h hc hfresh assign k v limit ha
    exact ⟨n1, c1, by rw [h1]; rfl, h2, h4⟩

theorem cvInsert_present (E : CvEnv ν) {c : CvCache κ ν} {q : FifoMap κ ν} (h : CvOk c q) (next : Nat) (k : κ) (v : ν) (limit : Option Nat) (hk : k ∈ q.entries.map (·.1)) :
    cvInsert E false next c k v limit = some (next, c, true) := by
  unfold cvInsert
  rw [if_pos h.free]
  split
  · rfl
  · unfold cvInsertOne
    rw [if_pos ((h.has k).mpr hk)]; rfl

theorem cvInsertRange_ok (E : CvEnv ν) {c : CvCache κ ν} {q : FifoMap κ ν} (h : CvOk c q) {next : Nat} (hfresh : ∀ p ∈ c.nodes, p.1 < next) (xs : List (κ × ν)) (limit : Option Nat) :
    ∃ next' c', cvInsertRange E next c xs limit = some (next', c', (q.putAll E.torn (xs.drop (xs.length - q.cap)) limit).2) ∧
      CvOk c' (q.putAll E.torn (xs.drop (xs.length - q.cap)) limit).1 ∧ CvNew next next' c c' := by
  unfold cvInsertRange
  rw [if_pos h.free]
  have hcap : c.order.capacity = q.cap := h.cap
  rw [hcap]
  by_cases hc : q.cap = 0
  · rw [if_pos hc, putAll_cap_zero _ _ _ _ hc]
    exact ⟨next, c, rfl, h, CvNew.refl _ _⟩
  · rw [if_neg hc]
    have : xs.length - min q.cap xs.length = xs.length - q.cap := by omega
    rw [this]
    exact cvInsertAll_ok E _ limit h hc hfresh

theorem cvClear_ok {c : CvCache κ ν} {q : FifoMap κ ν} (h : CvOk c q) : ∃ o, cvClear c = some ⟨[], c.buckets, o, c.valid⟩ ∧ CvOk (⟨[], c.buckets, o, c.valid⟩ : CvCache κ ν) ⟨q.cap, []⟩ := by
  obtain ⟨o, h1, h2, h3⟩ := h.order.clear
  exact ⟨o, by simp [cvClear, h1], rfl, h3, by rw [← h.cap]; exact h2, h.buckets, by simp, by simp, h.valid⟩

/-- `reset`, unless the allocation of the queue fails. -/
theorem cvReset_ok (E : CvEnv ν) (hE : ∀ old n, n ≤ E.rehash old n) {c : CvCache κ ν} {q : FifoMap κ ν} (h : CvOk c q) (n : Nat) (limit : Option Nat) (hl : n ≠ q.cap → limit ≠ some 1) :
    (throws limit (if n = q.cap then 1 else 2) = true ∧ ∃ c', c'.nodes = [] ∧ cvReset E c n limit = some (c', false) ∧ CvOk c' ⟨q.cap, []⟩) ∨
    (throws limit (if n = q.cap then 1 else 2) = false ∧ ∃ c', c'.nodes = [] ∧ cvReset E c n limit = some (c', true) ∧ CvOk c' ⟨n, []⟩) := by
  obtain ⟨o, h1, h2⟩ := cvClear_ok h
  unfold cvReset
  rw [h1]
  simp only [Option.bind_eq_bind, Option.bind_some]
  have hcap : o.capacity = q.cap := h2.cap
  rw [hcap]
  rcases cbSpend_cases limit with ⟨hs, hl0, ht⟩ | ⟨l, hs, ht⟩
  · have : throws limit (if n = q.cap then 1 else 2) = true := by split; exacts [ht 0, ht 1]
    rw [hs]
    exact Or.inl ⟨this, _, rfl, rfl, h2⟩
  · rw [hs]
    simp only []
    by_cases hn : n = q.cap
    · rw [if_pos hn, if_pos hn, (ht 0).1, throws_zero]
      refine Or.inr ⟨rfl, _, ?_, rfl, h2.nodes, h2.order, h2.cap.trans hn.symm, hE _ _, by simp, h2.ids, h2.valid⟩
      rfl
    · rw [if_neg hn, if_neg hn, (ht 1).1, if_neg (by rw [h.valid]; simp)]
      rcases cbSpend_cases l with ⟨hs', hl', _⟩ | ⟨l', hs', ht'⟩
      · exfalso
        subst hl'
        rcases limit with _ | _ | _ | m <;> simp [cbSpend] at hs
        exact hl hn rfl
      · rw [hs', (ht' 0).1, throws_zero]
        obtain ⟨o2, g1, g2, g3⟩ := h2.order.reset n
        simp only [] at g1
        simp only [g1, Option.bind_some, Option.pure_def]
        exact Or.inr ⟨trivial, ⟨[], E.rehash c.buckets (n + 1), o2, c.valid⟩, rfl, rfl, rfl, by simpa using g3, g2, hE _ _, by simp, by simp, h.valid⟩

theorem cvDefault_ok (E : CvEnv ν) (hE : 1 ≤ E.defaultBuckets) : CvOk (cvDefault E : CvCache κ ν) ⟨0, []⟩ :=
  ⟨rfl, CircularBuffer.repr_init 0, by simp [cvDefault, CircularBuffer.init], by simpa [cvDefault] using hE, by simp, by simp [cvDefault], rfl⟩

theorem cvCtor_cases (E : CvEnv ν) (hE : ∀ n, n ≤ E.initBuckets n) (cap : Nat) (limit : Option Nat) :
    (throws limit 2 = true ∧ (cvCtor E cap limit : Option (CvCache κ ν × Option Nat)) = none) ∨
    ∃ c l, throws limit 2 = false ∧ (cvCtor E cap limit : Option (CvCache κ ν × Option Nat)) = some (c, l) ∧ (∀ n, throws limit (n + 2) = throws l n) ∧ CvOk c ⟨cap, []⟩ ∧ c.nodes = [] := by
  unfold cvCtor
  rcases cbSpend_cases limit with ⟨hs, hl, ht⟩ | ⟨l, hs, ht⟩
  · exact Or.inl ⟨ht 1, by rw [hs]; rfl⟩
  · rcases cbSpend_cases l with ⟨hs', hl', ht'⟩ | ⟨l', hs', ht'⟩
    · exact Or.inl ⟨by rw [(ht 1).1]; exact ht' 0, by simp [hs, hs']⟩
    · right
      refine ⟨_, l', ?_, by simp only [hs, hs', Option.bind_eq_bind, Option.bind_some]; rfl, ?_, ?_, rfl⟩
      · rw [(ht 1).1, (ht' 0).1, throws_zero]
      · intro n; rw [(ht (n + 1)).1, (ht' n).1]
      · exact ⟨rfl, CircularBuffer.repr_init cap, by simp [CircularBuffer.init], hE _, by simp, by simp, rfl⟩

theorem cvDeref_ok {nodes : List (Nat × κ × ν)} (hd : (nodes.map (·.1)).Nodup) {p : Nat × κ × ν} (hp : p ∈ nodes) : cvDeref nodes p.1 = some p.2 := by
  induction nodes with
  | nil => cases hp
  | cons a nodes ih =>
    simp only [List.map_cons, List.nodup_cons] at hd
    unfold cvDeref
    rcases List.mem_cons.mp hp with rfl | hp
    · simp
    · have : a.1 ≠ p.1 := by intro e; exact hd.1 (e ▸ List.mem_map_of_mem hp)
      rw [List.find?_cons_of_neg (by simpa using this)]
      exact ih hd.2 hp

/-- The loop of the copy constructor. -/
theorem cvCopyLoop_ok (other : CvCache κ ν) (hids : (other.nodes.map (·.1)).Nodup) (cap : Nat) (post : List (Nat × κ × ν)) :
    ∀ (pre : List (κ × ν)) {c : CvCache κ ν} {next : Nat} (limit : Option Nat), (∀ p ∈ post, p ∈ other.nodes) → CvOk c ⟨cap, pre⟩ → (∀ p ∈ c.nodes, p.1 < next) →
    ((pre ++ post.map (·.2)).map (·.1)).Nodup → pre.length + post.length ≤ cap →
    ∃ next' c', cvCopyLoop other next c (post.map (·.1)) limit = some (next', c', !throws limit post.length) ∧ CvNew next next' c c' ∧
      (throws limit post.length = false → CvOk c' ⟨cap, pre ++ post.map (·.2)⟩) := by
  induction post with
  | nil =>
    intro pre c next limit _ h _ _ _
    refine ⟨next, c, ?_, CvNew.refl _ _, fun _ => by simpa using h⟩
    simp [cvCopyLoop, throws_zero]
  | cons p post ih =>
    intro pre c next limit hmem h hf hnd hlen
    obtain ⟨i, k, v⟩ := p
    have hd := cvDeref_ok hids (hmem (i, k, v) (by simp))
    have hk : k ∉ pre.map (·.1) := by
      intro hk
      rw [List.map_append, List.nodup_append] at hnd
      exact hnd.2.2 _ hk _ (by simp) rfl
    have hfind : c.nodes.find? (fun p => decide (p.2.1 = k)) = none := by
      rw [List.find?_eq_none]
      intro p hp e
      apply hk
      have : pre = c.nodes.map (·.2) := h.nodes.symm
      rw [this]
      simp only [decide_eq_true_eq] at e
      rw [← e]
      exact List.mem_map_of_mem (List.mem_map_of_mem hp)
    simp only [List.map_cons, List.length_cons] at hnd hlen ⊢
    unfold cvCopyLoop
    simp only [hd, Option.bind_eq_bind, Option.bind_some, hfind]
    rcases cbSpend_cases limit with ⟨hs, hl, ht⟩ | ⟨l, hs, ht⟩
    · rw [hs, ht post.length]
      exact ⟨next, c, rfl, CvNew.refl _ _, fun h => by cases h⟩
    · rw [hs, (ht post.length).1]
      have hb := h.buckets
      have hlen' : c.nodes.length = pre.length := h.length
      simp only [] at hb
      simp only []
      rw [if_neg (by omega)]
      have hnext : next ∉ c.nodes.map (·.1) := by
        intro hm
        obtain ⟨p, hp, e⟩ := List.mem_map.mp hm
        have := hf p hp; omega
      obtain ⟨o, ho1, ho2, ho3⟩ := h.order.pushBack next (by have := h.cap; simp only [] at this; omega)
      rw [h.cap, List.length_map, hlen', if_neg (by simp only []; omega)] at ho3
      simp only [ho1, Option.bind_some]
      have hnew : CvNew next (next + 1) c { c with nodes := c.nodes ++ [(next, k, v)], order := o } := by
        refine ⟨Nat.le_succ _, ?_⟩
        intro p hp
        rcases List.mem_append.mp hp with hp | hp
        · exact Or.inl ⟨p, hp, rfl⟩
        · simp at hp; rw [hp]; right; simp
      have hok : CvOk { c with nodes := c.nodes ++ [(next, k, v)], order := o } ⟨cap, pre ++ [(k, v)]⟩ := by
        refine ⟨?_, by simpa using ho3, ?_, hb, ?_, ?_, h.valid⟩
        · have := h.nodes
          simp only [] at this
          simp [this]
        · simp only []; rw [ho2]; exact h.cap
        · rw [List.map_append, List.map_cons, List.map_nil]
          rw [List.map_append, List.map_cons] at hnd
          rw [show pre.map (·.1) ++ k :: (post.map (·.2)).map (·.1) = (pre.map (·.1) ++ [k]) ++ (post.map (·.2)).map (·.1) by simp] at hnd
          exact (List.nodup_append.mp hnd).1
        · simp only [List.map_append, List.map_cons, List.map_nil]
          rw [List.nodup_append]
          refine ⟨h.ids, by simp, ?_⟩
          intro a ha b hb'
          simp only [List.mem_singleton] at hb'
          rintro rfl; exact hnext (hb' ▸ ha)
      obtain ⟨n2, c2, g1, g2, g3⟩ := ih (pre ++ [(k, v)]) l (fun p hp => hmem p (List.mem_cons_of_mem _ hp)) hok (hnew.fresh hf) (by simpa using hnd) (by simp; omega)
      exact ⟨n2, c2, g1, hnew.trans g2, fun h => by simpa using g3 h⟩

/-- The copy constructor. -/
theorem cvCopy_ok (E : CvEnv ν) (hE : ∀ n, n ≤ E.initBuckets n) {other : CvCache κ ν} {q : FifoMap κ ν} (h : CvOk other q) (next : Nat) (limit : Option Nat) :
    (throws limit (2 + q.entries.length) = true ∧ ∃ next', next ≤ next' ∧ cvCopy E next other limit = some (next', none)) ∨
    (throws limit (2 + q.entries.length) = false ∧ ∃ next' c, next ≤ next' ∧ cvCopy E next other limit = some (next', some c) ∧ CvOk c q ∧ ∀ p ∈ c.nodes, next ≤ p.1 ∧ p.1 < next') := by
  unfold cvCopy
  have hcap : other.order.capacity = q.cap := h.cap
  rw [hcap, Nat.add_comm 2]
  rcases cvCtor_cases (κ := κ) E hE q.cap limit with ⟨h1, h2⟩ | ⟨c, l, h1, h2, h3, h4, h5⟩
  · left
    refine ⟨?_, next, Nat.le_refl _, by rw [h2]⟩
    cases limit with
    | none => simp [throws] at h1
    | some m => simp [throws] at h1 ⊢; omega
  · obtain ⟨n2, c2, g1, g2, g3⟩ := cvCopyLoop_ok other h.ids q.cap other.nodes [] (next := next) l (fun _ h => h) h4 (by rw [h5]; simp) (by simpa [h.nodes] using h.nodup)
      (by simpa [h.length] using h.le_cap)
    rw [h.length] at g1 g3
    rw [h3, h2]
    simp only [h.order.contents, Option.bind_eq_bind, Option.bind_some, g1, Option.pure_def]
    cases ht : throws l q.entries.length with
    | true => exact Or.inl ⟨rfl, n2, g2.1, rfl⟩
    | false =>
      refine Or.inr ⟨rfl, n2, c2, g2.1, rfl, by simpa [h.nodes] using g3 ht, ?_⟩
      intro p hp
      rcases g2.2 p hp with ⟨r, hr, _⟩ | h6
      · rw [h5] at hr; cases hr
      · exact h6

end Gapp.Model
