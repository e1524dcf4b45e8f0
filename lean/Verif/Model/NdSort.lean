import Verif.Model.ParetoFront
/-!
# Model of the non-dominated sorting algorithms

Source: `/repo/src/algorithm/nd_sort.cpp`. A `FrontElement` is a pair (index, rank). As for the Pareto
fronts, the loops are written for an arbitrary comparison of row indices. The counters `better_count` and `sum` are
integers (an underflow, which would wrap around in the code, gives a negative number; in both cases not zero).
-/

namespace Gapp.Model

/-! ### Fast non-dominated sort -/

/-- nd_sort.cpp:97-101 `DominanceList`s of all the solutions, as two functions of the solution index. -/
structure DomLists where
  worse : Nat → List Nat
  better : Nat → Int

/-- a store such as those of nd_sort.cpp:131-137: Function update. -/
def fupd {β : Type} (f : Nat → β) (i : Nat) (v : β) : Nat → β := fun j => if j = i then v else f j

/-- nd_sort.cpp:128-138: the body of the double loop. -/
def domListsBody (cmp : Nat → Nat → Int) (lhs : Nat) (d : DomLists) (rhs : Nat) : DomLists :=
  if cmp lhs rhs < 0 then
    { better := fupd d.better lhs (d.better lhs + 1), worse := fupd d.worse rhs (d.worse rhs ++ [lhs]) }
  else if cmp lhs rhs > 0 then
    { better := fupd d.better rhs (d.better rhs + 1), worse := fupd d.worse lhs (d.worse lhs ++ [rhs]) }
  else d

/-- nd_sort.cpp:105-143 `constructDominanceLists`. The static storage is cleared on every call (111-121), so the result
starts from empty lists. -/
def constructDominanceLists (cmp : Nat → Nat → Int) (n : Nat) : DomLists :=
  (List.range n).foldl (fun d lhs => (List.range lhs).foldl (domListsBody cmp lhs) d)
    { worse := fun _ => [], better := fun _ => 0 }

/-- nd_sort.cpp:172-178: the loop over `worse_indices`. -/
def fndsRelease (rank : Nat) (ws : List Nat) (s : (Nat → Int) × List (Nat × Nat)) : (Nat → Int) × List (Nat × Nat) :=
  ws.foldl (fun s w =>
    let b := s.1 w - 1
    (fupd s.1 w b, if b = 0 then s.2 ++ [(w, rank)] else s.2)) s

/-- nd_sort.cpp:168-179: the loop over the current front (a slice of `pfronts`, which only grows at its end). -/
def fndsFront (worse : Nat → List Nat) (rank : Nat) (front : List (Nat × Nat))
    (s : (Nat → Int) × List (Nat × Nat)) : (Nat → Int) × List (Nat × Nat) :=
  front.foldl (fun s e => fndsRelease rank (worse e.1) s) s

/-- nd_sort.cpp:163-181: the outer loop; `first` is the position of `front_first`, and `front_last` is the end of
`pfronts` at the start of an iteration. Dereferencing `front_first` at the end of `pfronts` is `none`, as is
running out of `fuel`. -/
def fndsLoop (worse : Nat → List Nat) (popsize : Nat) : Nat → Nat → (Nat → Int) → List (Nat × Nat) →
    Option (List (Nat × Nat))
  | 0, _, _, pf => if pf.length = popsize then some pf else none
  | fuel + 1, first, better, pf =>
    if pf.length = popsize then some pf
    else match pf[first]? with
      | none => none
      | some e =>
        let s := fndsFront worse (e.2 + 1) (pf.drop first) (better, pf)
        fndsLoop worse popsize fuel pf.length s.1 s.2

/-- nd_sort.cpp:145-184 `fastNonDominatedSort`. -/
def fndsSort (cmp : Nat → Nat → Int) (n : Nat) : Option (List (Nat × Nat)) :=
  let d := constructDominanceLists cmp n
  let pf := ((List.range n).filter (fun i => d.better i == 0)).map (fun i => (i, 0))
  fndsLoop d.worse n n 0 d.better pf

/-! ### Dominance degree sort -/

/-- nd_sort.cpp:198, 205: A dominance matrix: `true` is `MAXIMAL`. -/
abbrev DomMat := Nat → Nat → Bool

/-- nd_sort.cpp:235-242: Store into a matrix cell. -/
def DomMat.set (d : DomMat) (row col : Nat) (v : Bool) : DomMat := fun r c => if r = row ∧ c = col then v else d r c

/-- nd_sort.cpp:214-230: the cells that one objective's task sets to `NONMAXIMAL`, in order; the argument is the
reversed index list (ascending values). `eq`: `floatIsEqual` of the objective values of two rows. Loading a cell
before storing the constant `NONMAXIMAL` (225-228) does not change the effect of the store. -/
def objectiveMarks (eq : Nat → Nat → Bool) : List Nat → List (Nat × Nat)
  | [] => []
  | row :: rest => (rest.dropWhile (fun prev => eq prev row)).map (fun col => (row, col)) ++ objectiveMarks eq rest

/-- nd_sort.cpp:207-231: the stores, in the order in which the scheduler interleaves the tasks. -/
def applyMarks (d : DomMat) (marks : List (Nat × Nat)) : DomMat :=
  marks.foldl (fun d m => d.set m.1 m.2 false) d

/-- nd_sort.cpp:239-243: one step of the loop that removes equal rows. -/
def clearPair (row : Nat) (d : DomMat) (col : Nat) : DomMat :=
  if d row col && d col row then (d.set row col false).set col row false else d

/-- nd_sort.cpp:233-245: the diagonal and the equal rows. -/
def clearEqual (n : Nat) (d : DomMat) : DomMat :=
  (List.range n).foldl (fun d row =>
    ((List.range n).filter (fun col => row + 1 ≤ col)).foldl (clearPair row) (d.set row row false)) d

/-- nd_sort.cpp:250-268 `colwiseSums`. -/
def colwiseSums (n : Nat) (d : DomMat) : List (Nat × Int) :=
  (List.range n).map (fun col =>
    (col, (List.range n).foldl (fun sum row => sum - (if d row col then 0 else 1)) (n : Int)))

/-- nd_sort.cpp:301-308: the loop over the remaining columns for a removed row. -/
def ddsRemoveRow (s : DomMat × List (Nat × Int)) (row : Nat) : DomMat × List (Nat × Int) :=
  s.2.foldl (fun acc c =>
    if acc.1 row c.1 then (acc.1.set row c.1 false, acc.2 ++ [(c.1, c.2 - 1)]) else (acc.1, acc.2 ++ [c])) (s.1, [])

/-- nd_sort.cpp:283-312: the main loop. Running out of `fuel` is `none`. -/
def ddsLoop (popsize : Nat) : Nat → DomMat → List (Nat × Int) → Nat → List (Nat × Nat) → Option (List (Nat × Nat))
  | 0, _, _, _, pf => if pf.length = popsize then some pf else none
  | fuel + 1, d, cols, rank, pf =>
    if pf.length = popsize then some pf
    else
      let removed := (cols.filter (fun c => c.2 == 0)).map (·.1)
      let s := removed.foldl ddsRemoveRow (d, cols.filter (fun c => c.2 != 0))
      ddsLoop popsize fuel s.1 s.2 (rank + 1) (pf ++ removed.map (fun i => (i, rank)))

/-- nd_sort.cpp:270-315 `dominanceDegreeSort`, for the stores `marks` of the parallel phase in execution order. -/
def ddsSort (n : Nat) (marks : List (Nat × Nat)) : Option (List (Nat × Nat)) :=
  let d := clearEqual n (applyMarks (fun _ _ => true) marks)
  ddsLoop n n d (colwiseSums n d) 0 []

/-! ### Efficient non-dominated sort -/

/-- nd_sort.cpp:345-360: the search for the front of `idx` in the suffix of `pareto_fronts` that starts at `front_first`,
and the insertion there. Every iteration that does not end the loop consumes an element; running out of `fuel` is
`none`. -/
def ensPlace (less : Nat → Nat → Bool) (idx : Nat) : Nat → Nat → List (Nat × Nat) → Option (List (Nat × Nat))
  | 0, _, _ => none
  | fuel + 1, rank, suffix =>
    if suffix = [] then some [(idx, rank)]
    else
      let front := suffix.takeWhile (fun e => e.2 == rank)
      if front.any (fun e => less idx e.1) then
        (ensPlace less idx fuel (rank + 1) (suffix.dropWhile (fun e => e.2 == rank))).map (front ++ ·)
      else some ((idx, rank) :: suffix)

/-- nd_sort.cpp:340-361: the loop over the sorted indices. -/
def ensLoop (less : Nat → Nat → Bool) : List Nat → List (Nat × Nat) → Option (List (Nat × Nat))
  | [], pf => some pf
  | idx :: rest, pf => (ensPlace less idx (pf.length + 1) 0 pf).bind (ensLoop less rest)

/-! ### The algorithms on a fitness matrix -/

section Mat
variable {K : Type} [CommRing K] [LinearOrder K]

/-- nd_sort.cpp:145-184 `fastNonDominatedSort`. -/
def fastNonDominatedSort (t : Tol K) (fmat : FMat K) : Option (List (Nat × Nat)) :=
  fndsSort (rowCmp t fmat) fmat.length

/-- Element `obj` of row `i` (nd_sort.cpp:209-210). The rows all have the objective. -/
def objVal (fmat : FMat K) (obj i : Nat) : Flt K := (fmat.getD i []).getD obj (.fin 0)

/-- nd_sort.cpp:212: a result of `argsort(fvec.rbegin(), fvec.rend())`, which sorts in descending order. -/
def IsObjArgsort (fmat : FMat K) (obj : Nat) (indices : List Nat) : Prop :=
  IsArgsort (fun l r => decide (objVal fmat obj r < objVal fmat obj l)) fmat.length indices

/-- nd_sort.cpp:207-231: the stores of the task of objective `obj`, for a result of its `argsort`. -/
def taskMarks (t : Tol K) (fmat : FMat K) (obj : Nat) (indices : List Nat) : List (Nat × Nat) :=
  objectiveMarks (fun i j => floatIsEqual t (objVal fmat obj i) (objVal fmat obj j)) indices.reverse

/-- nd_sort.cpp:207-231: `marks` is an interleaving of the stores of the `m` tasks, one per objective (any order of all
the stores is allowed, a superset of the possible interleavings). -/
def IsMarking (t : Tol K) (fmat : FMat K) (m : Nat) (marks : List (Nat × Nat)) : Prop :=
  ∃ sorts : Nat → List Nat, (∀ obj, obj < m → IsObjArgsort fmat obj (sorts obj)) ∧
    marks.Perm ((List.range m).flatMap (fun obj => taskMarks t fmat obj (sorts obj)))

/-- nd_sort.cpp:270-315 `dominanceDegreeSort`. -/
def dominanceDegreeSort (fmat : FMat K) (marks : List (Nat × Nat)) : Option (List (Nat × Nat)) :=
  ddsSort fmat.length marks

/-- nd_sort.cpp:326-364 `efficientNonDominatedSort` (= `nonDominatedSort`, 367-377), for a result of `argsort`. -/
def efficientNonDominatedSort (t : Tol K) (fmat : FMat K) (indices : List Nat) : Option (List (Nat × Nat)) :=
  ensLoop (rowLess t fmat) indices []

end Mat

/-! ### Bookkeeping of fronts -/

/-- nd_sort.cpp:29-34 `resize`. -/
def frontsResize (els : List (Nat × Nat)) (n : Nat) : Option (List (Nat × Nat)) :=
  if n ≤ els.length then some (els.take n) else none

/-- nd_sort.cpp:36-48 `ranks`; a store out of range is `none`. -/
def frontsRanks (els : List (Nat × Nat)) : Option (List Nat) :=
  els.foldlM (fun (r : List Nat) e => if e.1 < r.length then some (r.set e.1 e.2) else none)
    (List.replicate els.length 0)

/-- nd_sort.cpp:60-68: the loop of `fronts`; `front` holds the elements from `front_first` up to (not including) `it`,
`first` is `front_first->rank`. -/
def frontsLoop (first : Nat) (front : List (Nat × Nat)) : List (Nat × Nat) → List (List (Nat × Nat))
  | [] => [front]
  | e :: rest =>
    if e.2 ≠ first then front :: frontsLoop e.2 [e] rest
    else frontsLoop first (front ++ [e]) rest

/-- nd_sort.cpp:50-71 `fronts`; the ranges are given by their elements. -/
def frontsList : List (Nat × Nat) → Option (List (List (Nat × Nat)))
  | [] => none
  | e :: rest => some (frontsLoop e.2 [] (e :: rest))

/-- nd_sort.cpp:73-87 `partialFront`, as a pair of positions. An empty range of default iterators (line 78) is modelled
as `(0, 0)`. -/
def partialFront (els : List (Nat × Nat)) (size : Nat) : Option (Nat × Nat) :=
  if 0 < size ∧ size ≤ els.length then
    if size = els.length then some (0, 0)
    else do
      let right ← els[size]?
      let left ← els[size - 1]?
      let first := (els.take size).findIdx (fun e => e.2 == right.2)
      let last := size - 1 + (els.drop (size - 1)).findIdx (fun e => e.2 != left.2)
      return (first, last)
  else none

end Gapp.Model
