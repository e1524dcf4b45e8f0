import Verif.Proofs.SmallVectorHistory
/-!
# C45: the vector with inline storage behaves as `std::vector`
-/

namespace Gapp.Props

open Gapp.Model Gapp.Spec

variable {α : Type}

/-- The elements of the examples are numbers; 0 is left in a moved-from element. Elements are not trivially destructible, and three of them fit into the inline buffer. -/
def svEnvEx : SVEnv Nat := ⟨3, 100, fun _ => 0, fun _ => 0, 7, false⟩

theorem svEnvEx_ok : SVEnvOk svEnvEx := ⟨by decide, by decide, fun n h => by simpa [svEnvEx] using h⟩

/-- The same for trivially destructible elements. -/
def svEnvTriv : SVEnv Nat := ⟨3, 100, fun _ => 0, id, 7, true⟩

theorem svEnvTriv_ok : SVEnvOk svEnvTriv := ⟨by decide, by decide, fun n h => by simpa [svEnvTriv] using h⟩

/-- Every operation of every program has the effect it has on `std::vector`, and it constructs objects only in raw memory, reads, assigns and destroys only objects and frees only memory without objects; or it throws `std::length_error` because more than `max_size()` elements were asked for. Missing: the uses listed in `SVFaulty`, which do not work. -/
theorem C45_refines_vector_partial (E : SVEnv α) (hE : SVEnvOk E) (s : Nat → SVec α) (h : SVReach E s) (op : SVOp α)
    (hpre : VecPre (svContents E s) op) (hsafe : ¬ SVFaulty E s op) :
    (∃ s', svStep E s op = .ok s' ∧ VecPost E.default (svContents E s) (svContents E s') op) ∨
      (svStep E s op = .error .length ∧ E.maxSize < svDemand E s op) :=
  (svStep_out hE (svReach_good hE h) op hpre hsafe).imp (fun ⟨s', e, _, hp⟩ => ⟨s', e, hp⟩) id

/-- The elements of every vector can be read, they are as many as `size()` tells, `at` and `operator[]` return them, and `at` throws for the other indices. -/
theorem C45_elements (E : SVEnv α) (hE : SVEnvOk E) (s : Nat → SVec α) (h : SVReach E s) (v : Nat) :
    svElems E (s v) = .ok (svContents E s v) ∧ (s v).size = (svContents E s v).length ∧
      (∀ i (hi : i < (svContents E s v).length), svAt E (s v) i = .ok (svContents E s v)[i] ∧
        svIndex E (s v) i = .ok (svContents E s v)[i]) ∧
      ∀ i, (svContents E s v).length ≤ i → svAt E (s v) i = .error .range := by
  have hv := svReach_good hE h v
  have hread : ∀ i (hi : i < (svContents E s v).length), regRead (svRegion E (s v)) i = .ok (svContents E s v)[i] :=
    fun i hi => regRead_ok _ i _ (lt_of_lt_of_le hi (rep_region_cap hv)) (by rw [hv.live i hi, List.getElem?_eq_getElem hi])
  refine ⟨svElems_ok hv, hv.size, fun i hi => ⟨?_, ?_⟩, fun i hi => ?_⟩
  · unfold svAt
    rw [if_neg (by rw [hv.size]; omega), hread i hi]
  · unfold svIndex
    rw [if_pos (by rw [hv.size]; exact hi), hread i hi]
  · unfold svAt
    rw [if_pos (by rw [hv.size]; exact hi)]

/-- Whenever a vector is destroyed, every object in it is destroyed, and nothing else. -/
theorem C45_destructor (E : SVEnv α) (hE : SVEnvOk E) (s : Nat → SVec α) (h : SVReach E s) (v : Nat) :
    svDestroy E (s v) = .ok () := svDestroy_out hE (svReach_good hE h v)

/-- Vectors are equal if they have equal elements. -/
theorem C45_equality [BEq α] (E : SVEnv α) (hE : SVEnvOk E) (s : Nat → SVec α) (h : SVReach E s) (v w : Nat) :
    svEq E (s v) (s w) = .ok (svContents E s v == svContents E s w) := by
  unfold svEq
  rw [svElems_ok (svReach_good hE h v), svElems_ok (svReach_good hE h w)]
  rfl

/-- `reserve` makes room for as many elements as it was asked for. -/
theorem C45_reserve (E : SVEnv α) (hE : SVEnvOk E) (s : Nat → SVec α) (h : SVReach E s) (v n : Nat) (hn : n ≤ E.maxSize) :
    ∃ w, svReserve E (s v) n = .ok w ∧ n ≤ svCap E w := by
  rcases svReserve_out hE (svReach_good hE h v) n with ⟨w, e, _, hc, _⟩ | ⟨_, hl⟩
  · exact ⟨w, e, hc⟩
  · omega

/-- A program: 5 elements are added, which needs allocated storage from the fourth one on; an element of the vector is inserted in the middle; the first two elements are removed; the vector is moved into another one. -/
def svProgEx : List (SVOp Nat) :=
  [.pushBack 0 (.ext 1), .pushBack 0 (.ext 2), .pushBack 0 (.own 0), .pushBack 0 (.own 1), .emplace 0 1 (.own 3),
    .erase 0 0 2, .insertRange 0 2 [8, 9], .moveAssign 1 0 true]

/-- Running a program. -/
def svRunEx (E : SVEnv Nat) : List (SVOp Nat) → (Nat → SVec Nat) → Except SVErr (Nat → SVec Nat)
  | [], s => .ok s
  | op :: ops, s => do
    let s ← svStep E s op
    svRunEx E ops s

/-- The elements of vector `v` after a program. -/
def svAfterEx (E : SVEnv Nat) (ops : List (SVOp Nat)) (v : Nat) : Except SVErr (List Nat) := do
  let s ← svRunEx E ops (fun _ => svEmpty)
  svElems E (s v)

example : svAfterEx svEnvEx (svProgEx.take 5) 0 = .ok [1, 2, 2, 1, 2] := rfl
example : svAfterEx svEnvEx (svProgEx.take 6) 0 = .ok [2, 1, 2] := rfl
example : svAfterEx svEnvEx (svProgEx.take 7) 0 = .ok [2, 1, 8, 9, 2] := rfl
example : svAfterEx svEnvEx svProgEx 1 = .ok [2, 1, 8, 9, 2] := rfl
example : svAfterEx svEnvEx svProgEx 0 = .ok [] := rfl

/-- The program meets the hypotheses of `C45_refines_vector_partial` at each of the first four steps; the fourth one allocates storage. -/
example : ∃ s, SVReach svEnvEx s ∧ svContents svEnvEx s 0 = [1, 2, 1, 2] ∧ VecPre (svContents svEnvEx s) (.emplace 0 1 (.own 3)) ∧
    ¬ SVFaulty svEnvEx s (.emplace 0 1 (.own 3)) := by
  have r0 : SVReach svEnvEx (fun _ => svEmpty) := .init
  have r1 := SVReach.step (.pushBack 0 (.ext 1)) r0 rfl (by exact id) rfl
  have r2 := SVReach.step (.pushBack 0 (.ext 2)) r1 rfl (by exact id) rfl
  have r3 := SVReach.step (.pushBack 0 (.own 0)) r2 rfl (by exact id) rfl
  have r4 := SVReach.step (.pushBack 0 (.own 1)) r3 rfl (by exact id) rfl
  exact ⟨_, r4, rfl, ⟨by decide, rfl⟩, id⟩

/-! ## The uses that do not work -/

/-- `pop_back` destroys the memory past the last element instead of the last element: it has undefined behaviour on every vector whose elements are not trivially destructible. -/
theorem C45_pop_back_undefined (E : SVEnv α) (hE : SVEnvOk E) (ht : E.trivial = false) (s : Nat → SVec α) (h : SVReach E s) (v : Nat) :
    svPopBack E (s v) = .error .ub := svPopBack_ub ht (svReach_good hE h v)

example : svAfterEx svEnvEx [.ctorRange 0 [1, 2], .popBack 0] 0 = .error .ub := rfl
example : svAfterEx svEnvTriv [.ctorRange 0 [1, 2], .popBack 0] 0 = .ok [1] := rfl

/-- If there is enough spare capacity, a range is inserted at the position `max (size - count) pos` instead of `pos`. -/
theorem C45_insert_range_position (E : SVEnv α) (hE : SVEnvOk E) (s : Nat → SVec α) (h : SVReach E s) (v pos : Nat)
    (xs ys : List α) (hx : svContents E s v = xs) (hp : pos ≤ xs.length) (hroom : xs.length + ys.length ≤ svCap E (s v)) :
    ∃ w, svInsertRange E (s v) pos ys = .ok w ∧
      svElems E w = .ok (xs.take (max (xs.length - ys.length) pos) ++ ys ++ xs.drop (max (xs.length - ys.length) pos)) := by
  subst hx
  obtain ⟨w, e, hw⟩ := svInsertRange_inplace (svReach_good hE h v) pos hp ys hroom
  exact ⟨w, e, svElems_ok hw⟩

/-- The same for copies of a value. -/
theorem C45_insert_copies_position (E : SVEnv α) (hE : SVEnvOk E) (s : Nat → SVec α) (h : SVReach E s) (v pos n : Nat) (a : α)
    (xs : List α) (hx : svContents E s v = xs) (hp : pos ≤ xs.length) (hroom : xs.length + n ≤ svCap E (s v)) :
    ∃ w, svInsertN E (s v) pos n (.ext a) = .ok w ∧
      svElems E w = .ok (xs.take (max (xs.length - n) pos) ++ List.replicate n a ++ xs.drop (max (xs.length - n) pos)) := by
  subst hx
  obtain ⟨w, e, hw⟩ := svInsertN_inplace (svReach_good hE h v) pos hp n a hroom
  exact ⟨w, e, svElems_ok hw⟩

/-- Inserting 9 at the front of 1 … 5 gives 1 2 3 4 9 5. -/
example : svAfterEx svEnvEx [.ctorRange 0 [1, 2, 3, 4, 5], .reserve 0 10, .insertRange 0 0 [9]] 0 = .ok [1, 2, 3, 4, 9, 5] := rfl
example : svAfterEx svEnvEx [.ctorRange 0 [1, 2, 3, 4, 5], .reserve 0 10, .insertN 0 0 1 (.ext 9)] 0 = .ok [1, 2, 3, 4, 9, 5] := rfl
/-- Without spare capacity the result is right. -/
example : svAfterEx svEnvEx [.ctorRange 0 [1, 2, 3, 4, 5], .insertRange 0 0 [9]] 0 = .ok [9, 1, 2, 3, 4, 5] := rfl

/-- `insert(pos, count, value)` is not the insertion of `count` copies at `pos` for every program. -/
theorem C45_insert_is_not_vector_insert :
    ∃ (s : Nat → SVec Nat) (s' : Nat → SVec Nat), SVReach svEnvEx s ∧ VecPre (svContents svEnvEx s) (.insertN 0 0 1 (.ext 9)) ∧
      svStep svEnvEx s (.insertN 0 0 1 (.ext 9)) = .ok s' ∧
      ¬ VecPost svEnvEx.default (svContents svEnvEx s) (svContents svEnvEx s') (.insertN 0 0 1 (.ext 9)) := by
  have r0 : SVReach svEnvEx (fun _ => svEmpty) := .init
  have r1 := SVReach.step (.ctorRange 0 [1, 2, 3, 4, 5]) r0 trivial (by exact id) rfl
  have r2 := SVReach.step (.reserve 0 10) r1 trivial (by exact id) rfl
  refine ⟨_, _, r2, ⟨by decide, rfl⟩, rfl, ?_⟩
  rintro ⟨a, ha, h, -⟩
  have ha' : a = 9 := (Option.some.inj ha).symm
  subst ha'
  exact absurd (show [1, 2, 3, 4, 9, 5] = [9, 1, 2, 3, 4, 5] from h) (by decide)

/-- `resize(count, value)` reads freed memory if `value` is an element of the vector and the storage has to grow. -/
theorem C45_resize_own_element_undefined (E : SVEnv α) (hE : SVEnvOk E) (s : Nat → SVec α) (h : SVReach E s) (v n i : Nat)
    (hn : svCap E (s v) < n) (hm : n ≤ E.maxSize) : svResizeV E (s v) n (.own i) = .error .ub := by
  have hv := svReach_good hE h v
  have hs := hv.size
  have hf := hv.fit
  unfold svResizeV
  rw [if_neg (by omega)]
  rcases svReserve_out hE hv n with ⟨w, e, _⟩ | ⟨_, hl⟩
  · rw [e]
    show (if n > svCap E (s v) then _ else _) = _
    rw [if_pos hn]
  · omega

example : svAfterEx svEnvEx [.ctorRange 0 [1, 2, 3], .resizeV 0 4 (.own 0)] 0 = .error .ub := rfl
example : svAfterEx svEnvEx [.ctorRange 0 [1, 2, 3], .resizeV 0 4 (.ext 1)] 0 = .ok [1, 2, 3, 1] := rfl

/-- `insert(pos, count, value)` inserts moved-from objects if `value` is an element before `pos` and the storage grows: 5 is to be inserted twice, 0 is. -/
theorem C45_insert_own_element_wrong :
    svAfterEx svEnvEx [.ctorRange 0 [5, 6, 7], .insertN 0 2 2 (.own 0)] 0 = .ok [5, 6, 0, 0, 7] := rfl

/-- A range of elements of another, smaller type that is trivially convertible (`int` to `double`) is copied byte by byte, and bytes past the end of the range are read. -/
theorem C45_range_of_smaller_elements_undefined {β : Type} (bytes : List β) (n srcSize dstSize : Nat) (hn : 0 < n)
    (hb : bytes.length = n * srcSize) (hs : srcSize < dstSize) : rangeCopyBytes bytes n dstSize = .error .ub := by
  unfold rangeCopyBytes
  rw [if_neg]
  rw [hb]
  exact Nat.not_le.mpr (Nat.mul_lt_mul_of_pos_left hs hn)

example : rangeCopyBytes [1, 0, 0, 0, 2, 0, 0, 0] 2 8 = .error .ub := rfl

end Gapp.Props
