import Verif.Model.Stretch
import Verif.Props.ParticleExchange

/-!
# Specification: particles between two exchanges
-/

namespace Fbpic.Spec

open _root_.Spec

variable {K : Type} [Field K] [LinearOrder K] [IsStrictOrderedRing K] [FloorRing K]

/-- The moving window, if there is one, is not faster than light and was last moved one step before `t`, when
the grid was put within one cell of it. -/
def Synced (cl dz dt : K) (w : World K) (t : K) : Prop :=
  ∀ win, w.win = some win → |win.v| ≤ cl ∧ win.tLast = t - dt ∧ |w.zminG 0 - win.zmin| < dz

/-- Every particle of `Q` was at most `d` away a while ago, on the same rank (particles may be created where
others are, e.g. by ionization, or disappear). -/
def Descend (size : ℕ) (d : K) (P Q : ℕ → List (Ptcl K)) : Prop :=
  ∀ r < size, ∀ q ∈ Q r, ∃ p ∈ P r, |q.z - p.z| ≤ d

/-- Every particle is in the sub-domain of the rank that holds it. -/
def AllInside (c : Comm) (dz : K) (w : World K) (P : ℕ → List (Ptcl K)) : Prop :=
  ∀ r < c.size, ∀ lo hi, c.getZminZmax (w.zminG r) dz true true false (some r) = .ok (lo, hi) →
    ∀ p ∈ P r, lo ≤ p.z ∧ p.z ≤ hi

/-- The states right after an exchange in a run: particles move for `1 ≤ k ≤ exchange_period` iterations, not
faster than light; then they are exchanged. -/
inductive History (a : CommArgs K) (c : Comm) (cl dz dt : K) (vGal : Option K) :
    World K → K → (ℕ → List (Ptcl K)) → Prop
  | start (w : World K) (t : K) (P : ℕ → List (Ptcl K)) (hw : Reached a c dz w)
      (hs : Synced cl dz dt w t) (hP : AllInside c dz w P) :
      History a c cl dz dt vGal w t P
  | next (w w' : World K) (t : K) (P Q P' : ℕ → List (Ptcl K)) (k : ℕ) (tracked ionizable : Bool)
      (inj : Option (List (Ptcl K))) (fuel : ℕ)
      (h : History a c cl dz dt vGal w t P) (hk : 1 ≤ k) (hk' : (k : ℤ) ≤ c.exchangePeriod)
      (hw : World.run c dz w (stretchOps vGal dt t k) = .ok w')
      (hd : Descend c.size ((k : K) * (cl * dt)) P Q)
      (hinj : inj ≠ none → c.bz = .opened)
      (hin : AllInside c dz w' fun r => if r + 1 = c.size then inj.getD [] else [])
      (hx : ∀ r < c.size, exchangeParticles c dz (fun q => w'.interp q 0) (inj.map (PBuf.ofList tracked ionizable)) fuel
        (fun q => Species.ofList tracked ionizable (Q q)) r = some (Species.ofList tracked ionizable (P' r))) :
      History a c cl dz dt vGal w' (t + (k : K) * dt) P'

end Fbpic.Spec
