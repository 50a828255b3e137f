import Verif.Model.Injection

/-!
# Specification for C13

A plasma at rest in its own frame, loaded with `N` layers of spacing `d` starting at `a`: layer `j`
sits at `a + (j + 1/2) d`, ring `i` at `rmin + (i + 1/2) dr`, `Nptheta` angles per ring, each
macroparticle carrying `n * density * (r dtheta dr d)` electrons; macroparticles that would carry
none are not created.
-/

namespace Fbpic.Spec

variable {K : Type} [Field K] [LinearOrder K]

/-- Position of layer `j`. -/
def layerZ (a d : K) (j : ℕ) : K := a + d * ((j : K) + 1 / 2)

/-- Radius of ring `i`. -/
def ringR (pl : InjPlasma K) (i : ℕ) : K :=
  pl.rmin + (pl.rmax - pl.rmin) / (pl.Npr : K) * ((i : K) + 1 / 2)

/-- Number of physical particles represented by the macroparticle at `(z, r)`, angle `it`. -/
def weight (pl : InjPlasma K) (d z r : K) (it : ℕ) : K :=
  pl.n * r * (pl.twoPi / (pl.Nptheta : K)) * ((pl.rmax - pl.rmin) / (pl.Npr : K)) * d
    * pl.dens z r it

/-- All lattice sites of `N` layers. -/
def plasmaMesh (pl : InjPlasma K) (d : K) (N : ℕ) (a : K) : List (NewPtcl K) :=
  (List.range N).flatMap fun (j : ℕ) =>
    (List.range pl.Npr).flatMap fun (i : ℕ) =>
      (List.range pl.Nptheta).map fun (it : ℕ) =>
        ⟨layerZ a d j, ringR pl i, it, weight pl d (layerZ a d j) (ringR pl i) it⟩

/-- The plasma made of `N` layers starting at `a`. -/
def plasma (pl : InjPlasma K) (d : K) (N : ℕ) (a : K) : List (NewPtcl K) :=
  (plasmaMesh pl d N a).filter fun p => decide (0 < p.w)

end Fbpic.Spec

namespace Fbpic.Spec

variable {K : Type} [Field K] [LinearOrder K]

/-- A schedule the main loop can produce: the window moves forward in time; `exchange_particles`
is called `δ` after the last move (main.py:421-565: `move_grids` is called with `time`, then
`time += dt`, then comes the next `exchange_particles`; the window clock starts at `time - dt`,
moving_window.py:49). -/
def Sched (δ : K) : K → List (InjOp K) → Prop
  | _, [] => True
  | t, .move t' :: os => t ≤ t' ∧ Sched δ t' os
  | t, .exchange t' :: os => t' = t + δ ∧ Sched δ t os

/-- All particles created so far, in the order of creation, seen in the frame that moves with the
plasma (`z - vEnd * (time of creation)`). -/
def comoving (vEnd δ : K) (s : InjRun K) : List (NewPtcl K) :=
  s.created.flatMap fun e => e.2.map fun p => { p with z := p.z - vEnd * (e.1 + δ) }

end Fbpic.Spec
