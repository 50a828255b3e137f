import Verif.Model.Ionization

/-!
# Specification of one ionization step (C16, C17)

Written for the ions as a plain list, without batches, counters or temporary arrays.
-/

namespace Fbpic.Spec

variable {K A : Type}

/-- Ion `ip` is ionized once more in this step: it is below the maximal level and the draw says so. -/
def fires (P : IonParams) (ion : Ions K A) (dec : ℕ → ℕ → Bool) (ip : ℕ) : Bool :=
  decide (ion.level ip < P.levelMax) && dec ip (ion.level ip)

/-- Target species number `i` receives the electrons freed from level `level`: all of them when a
single species was given, those of level `levelStart + i` when one species per level was given. -/
def routed (P : IonParams) (i level : ℕ) : Bool :=
  if P.storePerLevel then decide (level = P.levelStart + i) else true

/-- The electrons that target `i` must receive, in the order of their parents. -/
def newElectrons (P : IonParams) (ion : Ions K A) (dec : ℕ → ℕ → Bool) (i : ℕ) : List (A × K) :=
  ((List.range ion.Ntot).filter fun ip => fires P ion dec ip && routed P i (ion.level ip)).map
    fun ip => (ion.attr ip, ion.w ip)

end Fbpic.Spec
