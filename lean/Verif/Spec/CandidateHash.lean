/-!
# What an unordered associative container requires of its keys

[unord.req] of the C++ standard: the comparison of keys is an equivalence relation, and keys that are equal have the same hash value.
-/

namespace Gapp.Spec

/-- The comparison is an equivalence relation. -/
structure KeyEquivalence {κ : Type} (eq : κ → κ → Bool) : Prop where
  refl : ∀ a, eq a a = true
  symm : ∀ a b, eq a b = true → eq b a = true
  trans : ∀ a b c, eq a b = true → eq b c = true → eq a c = true

/-- Equal keys have the same hash value. -/
def HashConsistent {κ η : Type} (eq : κ → κ → Bool) (hash : κ → η) : Prop := ∀ a b, eq a b = true → hash a = hash b

end Gapp.Spec
