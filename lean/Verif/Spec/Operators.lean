/-! # Specification: fitness values that can be trusted -/

namespace Gapp.Spec

/-- A candidate, given by its chromosome, fitness and flag, is truthful for the fitness function `f`: if it is marked as evaluated then its fitness is
the fitness of its chromosome. -/
def TruthfulFlag {G F : Type} (f : List G → F) (chrom : List G) (fitness : F) (evaluated : Bool) : Prop :=
  evaluated = true → fitness = f chrom

end Gapp.Spec
