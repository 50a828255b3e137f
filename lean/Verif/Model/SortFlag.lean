import Verif.Model.Step

/-!
# The flag `sorted` of a species on the GPU

`Particles.sorted` decides whether `deposit` sorts the particles (`particles/particles.py:866-871`).
The model replays the log of the PIC cycle (`Model/Step.lean`): each displacement of the grid
starts a new version of the grid, and each deposition records for which version of the grid the
prefix sum that it uses was computed.

Where the flag is set to `False`: `push_x` (`particles.py:665`), `add_buffers_to_particles`
(`boundaries/particle_buffer_handling.py:377`), new electrons and photons
(`ionizer.py:303`, `compton.py:227`). Not modelled: restart (it sets the flag to `False`,
`checkpoint_restart.py:370`).
-/

namespace Fbpic.Step

variable {K : Type}

/-- What is arbitrary here: whether the boundary communicator exchanges particles through buffers
(`n_guard != 0`, `boundary_communicator.py:740-748`; with `n_guard == 0` the positions are only wrapped),
whether the elementary processes at some time create particles of this species, whether a boosted-frame
diagnostic writes this species at some iteration, whether the moving window moves by at least one cell. -/
structure SortEnv (K : Type) where
  buffers : Bool
  creates : K → Bool
  sorts : ℕ → Bool
  moves : K → Bool

/-- State: `sorted`, version of the grid, version of the grid for which the prefix sum was computed,
and for each deposition these two versions (that of the grid first). -/
structure SortState where
  sorted : Bool
  grid : ℕ
  sortedFor : ℕ
  used : List (ℕ × ℕ)

namespace SortState

/-- `if not self.sorted: self.sort_particles(fld=fld); self.sorted = True`. -/
def sort (s : SortState) : SortState :=
  if s.sorted then s else { s with sorted := true, sortedFor := s.grid }

/-- Effect of an event of the PIC cycle. -/
def ev (E : SortEnv K) (s : SortState) : Ev K → SortState
  | .exchangeParticles _ => if E.buffers then { s with sorted := false } else s
  | .deposit _ _ => let s := s.sort; { s with used := s.used ++ [(s.grid, s.sortedFor)] }
  | .diagWrite i _ _ => if E.sorts i then s.sort else s
  | .pushX _ _ _ _ => { s with sorted := false }
  | .shiftGalilean _ => { s with grid := s.grid + 1 }
  | .elementary t => if E.creates t then { s with sorted := false } else s
  | .moveGrids t => if E.moves t then { s with grid := s.grid + 1 } else s
  | _ => s

/-- The state after a log, from the state after initialization (`particles.py:242`). -/
def replay (E : SortEnv K) (log : List (Ev K)) : SortState :=
  log.foldl (ev E) ⟨false, 0, 0, []⟩

end SortState

end Fbpic.Step
