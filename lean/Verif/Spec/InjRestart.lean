import Verif.Model.InjRestart
import Verif.Spec.Injection

/-!
# Specification for C71: injection over restarts
-/

namespace Fbpic.Spec

variable {K : Type} [Field K] [LinearOrder K] [IsStrictOrderedRing K] [FloorRing K]

/-- The particles created, in the order of creation, seen in the frame that moves with the plasma. -/
def comovingAt (vEnd : K) (created : List (K × List (NewPtcl K))) : List (NewPtcl K) :=
  created.flatMap fun e => e.2.map fun p => { p with z := p.z - vEnd * e.1 }

/-- Where the plasma ends after the particles `ps`, in layers of thickness `d`, were added to a plasma that ended
at `a`. -/
def plasmaEnd (a d : K) (ps : List (NewPtcl K)) : K :=
  match (ps.map fun p => p.z).max? with
  | none => a
  | some z => z + d / 2

/-- Where a plasma loaded in layers of thickness `d` ends, if `zs` are the positions of its particles on the last rank and
`zmax` the end of the physical domain. -/
def loadedEnd (d zmax : K) (zs : List K) : K :=
  match zs.max? with
  | some z => z + d / 2
  | none => zmax

/-- The states between two calls of `step`, in a history of any number of processes, each of which restarts from a
checkpoint of the one before. The plasma loaded at the beginning ends at `a` (in the frame of the plasma), inside the
physical domain (or at its right end if no particle is on the last rank). The plasma is not disturbed at its front end: at a
restart, the particle of the last rank that is most to the right is one of those at the end of the plasma, displaced with the
velocity of the plasma. -/
inductive InjHistory (c : Comm) (dz dt vGal vW vE : K) (pl : InjPlasma K) (a d : K) : InjSim K → Prop
  | start (s0 s s' : InjSim K) (zs : List K) (N : ℕ)
      (hc : s0.created = []) (hp : s0.inj.pos = none) (hd : s0.inj.dzp = some d) (hz : ∀ r, s0.w.zminG r = s0.w.zminG 0)
      (hE : s0.inj.vEnd = vE)
      (ha : a = loadedEnd d (s0.w.zminG 0 + (c.NzGlobal : K) * dz) zs - vE * s0.time)
      (hin : a + vE * s0.time ≤ s0.w.zminG 0 + (c.NzGlobal : K) * dz)
      (hw : s0.setWindow c dz dt vW = .ok s) (hs : s.stepN c dz dt vGal pl zs N = .ok s') :
      InjHistory c dz dt vGal vW vE pl a d s'
  | next (s s' : InjSim K) (zs : List K) (N : ℕ) (h : InjHistory c dz dt vGal vW vE pl a d s)
      (hs : s.stepN c dz dt vGal pl zs N = .ok s') : InjHistory c dz dt vGal vW vE pl a d s'
  | restart (s s1 s' : InjSim K) (zs : List K) (N : ℕ) (z : K) (h : InjHistory c dz dt vGal vW vE pl a d s)
      (hm : zs.max? = some z)
      (hz : z + d / 2 = plasmaEnd a d (comovingAt vE s.created) + vE * s.time)
      (hw : s.restarted.setWindow c dz dt vW = .ok s1) (hs : s1.stepN c dz dt vGal pl zs N = .ok s') :
      InjHistory c dz dt vGal vW vE pl a d s'

end Fbpic.Spec
