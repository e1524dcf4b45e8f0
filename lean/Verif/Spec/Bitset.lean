import Verif.Model.Bitset
/-!
# Specification of a resizable sequence of bits

A bitset is just a list of Booleans. Only the type of operations is shared with the model.
-/

namespace Gapp.Spec.Bits
open Gapp.Model.Bitset (Op)

/-- One modifier on a sequence of bits; `none` if the index is out of range. -/
def step (xs : List Bool) : Op → Option (List Bool)
  | .assign i v => if i < xs.length then some (xs.set i v) else none
  | .flip i => (xs[i]?).map (fun x => xs.set i (!x))
  | .fill v => some (xs.map (fun _ => v))
  | .clear => some []
  | .complement => some (xs.map (!·))
  | .resize n v => some (xs.take n ++ List.replicate (n - xs.length) v)

def run (xs : List Bool) (ops : List Op) : Option (List Bool) := ops.foldlM step xs

/-- A resize from `old` to `n` bits that stays clear of the defect of `resize`: it does not grow, or it
starts at a multiple of 64 bits, or it needs no new 64-bit block. -/
def SafeResize (old n : Nat) : Prop := n ≤ old ∨ old % 64 = 0 ∨ n ≤ (old + 63) / 64 * 64

/-- All the resizes of a history are safe; `xs` is the sequence of bits before the history. -/
def SafeHistory : List Bool → List Op → Prop
  | _, [] => True
  | xs, op :: ops =>
      (match op with | .resize n _ => SafeResize xs.length n | _ => True) ∧
      ∀ ys, step xs op = some ys → SafeHistory ys ops

end Gapp.Spec.Bits
