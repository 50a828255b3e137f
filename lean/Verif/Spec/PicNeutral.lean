import Verif.Spec.PicCycle

/-!
# Specification: the fields stored on the particles (C122)
-/

namespace Fbpic.Spec

open Pic ExternalField

/-- The external fields add the constant `a` to the component `k` on the species `id`, everywhere and at all times. -/
def Adds (c : Cfg) (id : ℕ) (k : Comp) (a : ℝ) : Prop := ∀ time x y z v, external c time id x y z k v = v + a

/-- `F` are the fields at the place of the particle `p` of the state `s`, up to whole periods of the box. -/
def FieldsOf (c : Cfg) (s : Sim) (id : ℕ) (sp : Pic.Species) (p : Ptcl) (F : Comp → ℝ) : Prop :=
  ∃ (z : ℝ) (n : ℤ), z = p.push.z + n * (s.zmax - s.zmin) ∧ FieldsAt c s id sp p.push.x p.push.y z F

end Fbpic.Spec
