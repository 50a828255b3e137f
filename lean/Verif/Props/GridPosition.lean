import Verif.Lemmas.Window
import Verif.Lemmas.Tactics
import Verif.Props.Decomposition

/-!
# C02: coordinates of shared cells; C11: moving window

Both quantify over arbitrary histories (`List (PosOp K)`) of `set_moving_window`, `move_grids`
(at arbitrary times) and Galilean shifts.
-/

namespace Fbpic

variable {K : Type} [Field K] [LinearOrder K] [IsStrictOrderedRing K] [FloorRing K]

/-- **C02.** After any history, on every rank and for every mode, the edges of the interpolation
grid are what the communicator of that rank reports, `zmax - zmin = Nz*dz` with the global `dz`,
and all ranks have the same idea of the position of the global domain. -/
theorem C02_extent (c : Comm) (z0 dz : K) (g : ℕ → InterpGrid K)
    (hinit : ∀ r < c.size, initGrid c z0 dz r = .ok (g r)) (ops : List (PosOp K)) (w : World K)
    (hrun : World.run c dz (World.start z0 g) ops = .ok w) (r : ℕ) (hr : r < c.size) (m : ℕ) :
    c.getZminZmax (w.zminG r) dz true true true (some r)
      = .ok ((w.interp r m).zmin, (w.interp r m).zmax) ∧
    (w.interp r m).zmax - (w.interp r m).zmin = ((w.interp r m).Nz : K) * dz ∧
    (w.interp r m).dz = dz ∧
    (∀ s, w.zminG r = w.zminG s) := by
  obtain ⟨Z, hZ, hI⟩ := World.inv_run (World.inv_start hinit) hrun
  obtain ⟨N, iz, h1, h2, h3⟩ := hI r hr m
  refine ⟨?_, ?_, ?_, ?_⟩
  · rw [Comm.getZminZmax_of h1, h3, hZ]
  · rw [h3]; simp
  · rw [h3]
  · intro s; rw [hZ, hZ]

/-- **C02** (edges): the right edge of a sub-domain (without guard cells) is the left edge of the
next one. -/
theorem C02_shared_edge (c : Comm) (Z dz : K) (d : Bool) (r : ℕ) (hr : r + 1 < c.size) :
    ∃ a b e, c.getZminZmax Z dz true d false (some r) = .ok (a, b) ∧
      c.getZminZmax Z dz true d false (some (r + 1)) = .ok (b, e) := by
  have h1 := Comm.getZminZmax_of (Comm.getNzIz_local c d false r) Z dz
  have h2 := Comm.getZminZmax_of (Comm.getNzIz_local c d false (r + 1)) Z dz
  rw [Comm.izLoc_succ c d r hr] at h2
  refine ⟨_, _, _, h1, by rw [h2]; congr 2; push_cast; ring⟩

/-- **C02** (shared cells): let cell `j` of rank `r` and cell `k` of rank `s` have global indices
that differ by `q` box lengths (`q = 0`: the same global cell; `q ≠ 0`: periodic images).
After any history their centres differ by exactly `q` box lengths. -/
theorem C02_shared_cell (c : Comm) (z0 dz : K) (g : ℕ → InterpGrid K)
    (hinit : ∀ r < c.size, initGrid c z0 dz r = .ok (g r)) (ops : List (PosOp K)) (w : World K)
    (hrun : World.run c dz (World.start z0 g) ops = .ok w)
    (r s : ℕ) (hr : r < c.size) (hs : s < c.size) (m m' j k N N' : ℕ) (iz iz' q : ℤ)
    (h1 : c.getNzIz true true true (some r) = .ok (N, iz))
    (h2 : c.getNzIz true true true (some s) = .ok (N', iz'))
    (hq : iz + j = iz' + k + q * c.NzGlobal) :
    (w.interp r m).z j = (w.interp s m').z k + (q : K) * ((c.NzGlobal : K) * dz) := by
  obtain ⟨Z, hZ, hI⟩ := World.inv_run (World.inv_start hinit) hrun
  obtain ⟨_, _, e1, _, e3⟩ := hI r hr m
  obtain ⟨_, _, f1, _, f3⟩ := hI s hs m'
  rw [h1] at e1; rw [h2] at f1
  cases e1; cases f1
  rw [e3, f3]
  simp only [InterpGrid.z]
  have : (iz : K) + j = iz' + k + q * c.NzGlobal := by exact_mod_cast hq
  have : (iz : K) = iz' + k + q * c.NzGlobal - j := by linarith
  rw [this]; ring

/-- **C02** (converse): two stored cells with the same centre are the same global cell. -/
theorem C02_same_centre (c : Comm) (z0 dz : K) (hdz : dz ≠ 0) (g : ℕ → InterpGrid K)
    (hinit : ∀ r < c.size, initGrid c z0 dz r = .ok (g r)) (ops : List (PosOp K)) (w : World K)
    (hrun : World.run c dz (World.start z0 g) ops = .ok w)
    (r s : ℕ) (hr : r < c.size) (hs : s < c.size) (m m' j k N N' : ℕ) (iz iz' : ℤ)
    (h1 : c.getNzIz true true true (some r) = .ok (N, iz))
    (h2 : c.getNzIz true true true (some s) = .ok (N', iz'))
    (hz : (w.interp r m).z j = (w.interp s m').z k) : iz + j = iz' + k := by
  obtain ⟨Z, hZ, hI⟩ := World.inv_run (World.inv_start hinit) hrun
  obtain ⟨_, _, e1, _, e3⟩ := hI r hr m
  obtain ⟨_, _, f1, _, f3⟩ := hI s hs m'
  rw [h1] at e1; rw [h2] at f1
  cases e1; cases f1
  rw [e3, f3] at hz
  simp only [InterpGrid.z] at hz
  have h : ((iz : K) + j - (iz' + k)) * dz = 0 := by linear_combination hz
  rcases mul_eq_zero.mp h with h | h
  · have : (iz : K) + j = iz' + k := by linarith
    exact_mod_cast this
  · exact absurd h hdz

/-- A concrete communicator used in the examples. -/
def exComm : Comm :=
  { NzGlobal := 16, size := 2, nGuard := 1, nzDamp := 2, nInject := 0, bz := .opened
    br := .reflective, exchangePeriod := 1 }

/-- Grids of the concrete communicator. -/
def exGrid : ℕ → InterpGrid ℚ := fun r => if r = 0 then ⟨12, -3, 9, 1⟩ else ⟨12, 7, 19, 1⟩

/-- Non-vacuity of the C02 hypotheses: two ranks, window set, moved and shifted. -/
example : (∀ r < exComm.size, initGrid exComm (0 : ℚ) 1 r = .ok (exGrid r)) ∧
    (World.run exComm (1 : ℚ) (World.start 0 exGrid)
      [.setWindow 3 0 1, .galilean (1/2) 1, .move 1, .move 2]).map
        (fun w => (w.zminG 0, (w.interp 1 0).zmin)) = .ok (17/2, 17/2 + 7) := by
  refine ⟨?_, by decide +kernel⟩
  intro r hr
  have : r = 0 ∨ r = 1 := by simp [exComm] at hr; omega
  rcases this with rfl | rfl <;> decide +kernel

end Fbpic
