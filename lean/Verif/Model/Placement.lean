import Verif.Model.Comm
import Mathlib.Logic.Function.Basic

/-!
# Where the data of a simulation is: CPU or GPU

The functions that move the particles and the fields between the CPU and the GPU
(`particles/particles.py:252-333`, `particles/tracking/tracking.py:54-64`,
`particles/elementary_process/ionization/ionizer.py:320-345`, `fields/fields.py:221-245`,
`fields/interpolation_grid.py:178-223`, `fields/spectral_grid.py:139-196`, `utils/cuda.py:101-181`), and
the functions that call them: `Simulation.step` (`main.py:401-403, 555-557`), the diagnostics
(`particle_diag.py:224-228, 279-283`, `field_diag.py:99-101, 155-157`,
`particle_density_diag.py:118-120, 137-139`), `GpuMemoryManager` (used in `lpa_utils/bunch.py:881`).

Each array is an array of numpy (on the CPU) or of cupy (on the GPU), with its content. What the PIC cycle
computes and what the diagnostics write is arbitrary here.
Not modelled: arrays that live on the GPU only (cell indices, prefix sums, copies of the wavenumbers and
filters, communication buffers), and the memory of the GPU.
-/

namespace Fbpic.Place

/-- An array of numpy or of cupy. -/
inductive DArr (A : Type) where
  | cpu (a : A)
  | gpu (a : A)

/-- Its content. -/
def DArr.val {A : Type} : DArr A → A
  | .cpu a => a
  | .gpu a => a

/-- `cupy.asarray(…)`: copies an array of numpy to the GPU; returns an array of cupy as it is. -/
def asarray {A : Type} (d : DArr A) : DArr A := .gpu d.val

/-- A Python object with arrays as attributes, the attributes `use_cuda` and `data_is_on_gpu`. -/
structure Obj (K A : Type) where
  useCuda : Bool
  onGpu : Bool
  arr : K → DArr A

variable {K A O : Type} [DecidableEq K]

/-- `self.a = cupy.asarray(self.a)` for the attributes of a list; then `data_is_on_gpu = True`. -/
def sendObj (l : List K) (o : Obj K A) : Obj K A :=
  if o.useCuda then
    { o with arr := fun k => if k ∈ l then asarray (o.arr k) else o.arr k, onGpu := true }
  else o

/-- `self.a = self.a.get()` for the attributes of a list, in order. An array of numpy has no method `get`:
the exception leaves the later attributes as they are. -/
def getAll : List K → (K → DArr A) → (K → DArr A) × Option PyErr
  | [], f => (f, none)
  | k :: ks, f =>
    match f k with
    | .gpu a => getAll ks (Function.update f k (.cpu a))
    | .cpu _ => (f, some (.attributeError "'numpy.ndarray' object has no attribute 'get'"))

/-- The same followed by `data_is_on_gpu = False`. -/
def recvObj (l : List K) (o : Obj K A) : Obj K A × Option PyErr :=
  if o.useCuda then
    match getAll l o.arr with
    | (f, none) => ({ o with arr := f, onGpu := false }, none)
    | (f, some e) => ({ o with arr := f }, some e)
  else (o, none)

/-- The arrays of a species, its tracker and its ionizer. -/
inductive PName
  | x | y | z | ux | uy | uz | invGamma | w
  | Ex | Ey | Ez | Bx | By | Bz
  | sortingBuffer | intSortingBuffer
  | id
  | ionizationLevel | wTimesLevel | adkPower | adkPrefactor | adkExpPrefactor
  deriving DecidableEq

/-- A species: its arrays, whether it has a tracker and an ionizer, `n_integer_quantities`. -/
structure Spc (A : Type) where
  obj : Obj PName A
  tracked : Bool
  ionizable : Bool
  nInt : ℕ

/-- The attributes that `send_particles_to_gpu` copies (`particles.py:257-293`; `tracking.py:54-58`;
`ionizer.py:320-331`). -/
def sentNames (s : Spc A) : List PName :=
  [.x, .y, .z, .ux, .uy, .uz, .invGamma, .w, .Ex, .Ey, .Ez, .Bx, .By, .Bz, .sortingBuffer]
    ++ (if s.nInt > 0 then [.intSortingBuffer] else [])
    ++ (if s.tracked then [.id] else [])
    ++ (if s.ionizable then
          [.ionizationLevel, .wTimesLevel, .adkPower, .adkPrefactor, .adkExpPrefactor] else [])

/-- The attributes that `receive_particles_from_gpu` copies (`particles.py:300-333`; `tracking.py:60-64`;
`ionizer.py:333-345`). -/
def recvNames (s : Spc A) : List PName :=
  [.x, .y, .z, .ux, .uy, .uz, .invGamma, .w, .Ex, .Ey, .Ez, .Bx, .By, .Bz, .sortingBuffer]
    ++ (if s.nInt > 0 then [.intSortingBuffer] else [])
    ++ (if s.tracked then [.id] else [])
    ++ (if s.ionizable then
          [.ionizationLevel, .wTimesLevel, .adkPower, .adkPrefactor, .adkExpPrefactor] else [])

/-- `Particles.send_particles_to_gpu` (`particles.py:252-296`). -/
def Spc.send (s : Spc A) : Spc A := { s with obj := sendObj (sentNames s) s.obj }

/-- `Particles.receive_particles_from_gpu` (`particles.py:298-336`). -/
def Spc.receive (s : Spc A) : Spc A × Option PyErr :=
  ({ s with obj := (recvObj (recvNames s) s.obj).1 }, (recvObj (recvNames s) s.obj).2)

/-- The arrays of the interpolation grid and of the spectral grid of a mode. -/
inductive FName
  | iEr | iEt | iEz | iBr | iBt | iBz | iJr | iJt | iJz | iRho | iErPml | iEtPml | iBrPml | iBtPml
  | sEp | sEm | sEz | sBp | sBm | sBz | sJp | sJm | sJz | sRhoPrev | sRhoNext
  | sEpPml | sEmPml | sBpPml | sBmPml | sRhoNextZ | sRhoNextXy
  deriving DecidableEq

/-- The fields: their arrays for each mode, the number of modes, whether there are PMLs, whether the
arrays of the cross-deposition exist. -/
structure Flds (A : Type) where
  obj : Obj (ℕ × FName) A
  nm : ℕ
  pml : Bool
  cross : Bool

/-- What `send_fields_to_gpu` copies for the grids of a mode (`interpolation_grid.py:178-200`,
`spectral_grid.py:139-166`). -/
def sentModeNames (f : Flds A) : List FName :=
  [.iEr, .iEt, .iEz, .iBr, .iBt, .iBz, .iJr, .iJt, .iJz, .iRho]
    ++ (if f.pml then [.iErPml, .iEtPml, .iBrPml, .iBtPml] else [])
    ++ [.sEp, .sEm, .sEz, .sBp, .sBm, .sBz, .sJp, .sJm, .sJz, .sRhoPrev, .sRhoNext]
    ++ (if f.pml then [.sEpPml, .sEmPml, .sBpPml, .sBmPml] else [])
    ++ (if f.cross then [.sRhoNextZ, .sRhoNextXy] else [])

/-- What `receive_fields_from_gpu` copies for the grids of a mode (`interpolation_grid.py:202-223`,
`spectral_grid.py:169-196`). -/
def recvModeNames (f : Flds A) : List FName :=
  [.iEr, .iEt, .iEz, .iBr, .iBt, .iBz, .iJr, .iJt, .iJz, .iRho]
    ++ (if f.pml then [.iErPml, .iEtPml, .iBrPml, .iBtPml] else [])
    ++ [.sEp, .sEm, .sEz, .sBp, .sBm, .sBz, .sJp, .sJm, .sJz]
    ++ (if f.pml then [.sEpPml, .sEmPml, .sBpPml, .sBmPml] else [])
    ++ [.sRhoPrev, .sRhoNext]
    ++ (if f.cross then [.sRhoNextZ, .sRhoNextXy] else [])

/-- `Fields.send_fields_to_gpu` (`fields.py:221-232`). -/
def Flds.send (f : Flds A) : Flds A :=
  { f with obj := sendObj ((List.range f.nm).flatMap fun m => (sentModeNames f).map fun n => (m, n)) f.obj }

/-- `Fields.receive_fields_from_gpu` (`fields.py:234-245`). -/
def Flds.receive (f : Flds A) : Flds A × Option PyErr :=
  let r := recvObj ((List.range f.nm).flatMap fun m => (recvModeNames f).map fun n => (m, n)) f.obj
  ({ f with obj := r.1 }, r.2)

/-- A simulation: the species of the program (by number; those of the simulation are in the list `ptcl`),
the fields, what the diagnostics have written. -/
structure GSim (A O : Type) where
  useCuda : Bool
  spc : ℕ → Spc A
  ptcl : List ℕ
  fld : Flds A
  out : List O

/-- The contents of all arrays. -/
structure Vals (A : Type) where
  spc : ℕ → PName → A
  fld : ℕ × FName → A

/-- The contents of the arrays of a simulation. -/
def GSim.vals (s : GSim A O) : Vals A :=
  ⟨fun i n => ((s.spc i).obj.arr n).val, fun k => (s.fld.obj.arr k).val⟩

/-- A method of the simulation: the simulation afterwards and the exception, if any. -/
abbrev Meth (A O : Type) := GSim A O → GSim A O × Option PyErr

/-- One statement after the other. -/
def Meth.seq (f g : Meth A O) : Meth A O := fun s =>
  match f s with
  | (s', none) => g s'
  | (s', some e) => (s', some e)

/-- `for species in …: species.send_particles_to_gpu()` for the species with `use_cuda`. -/
def sendSpecies (ids : List ℕ) : Meth A O := fun s =>
  (ids.foldl (fun s i =>
    if (s.spc i).obj.useCuda then { s with spc := Function.update s.spc i (s.spc i).send } else s) s, none)

/-- `for species in …: species.receive_particles_from_gpu()` for the species with `use_cuda`. -/
def recvSpecies : List ℕ → Meth A O
  | [] => fun s => (s, none)
  | i :: ids => fun s =>
    if (s.spc i).obj.useCuda then
      match (s.spc i).receive with
      | (p, none) => recvSpecies ids { s with spc := Function.update s.spc i p }
      | (p, some e) => ({ s with spc := Function.update s.spc i p }, some e)
    else recvSpecies ids s

/-- `fld.send_fields_to_gpu()`. -/
def sendFields : Meth A O := fun s => ({ s with fld := s.fld.send }, none)

/-- `fld.receive_fields_from_gpu()`. -/
def recvFields : Meth A O := fun s => ({ s with fld := s.fld.receive.1 }, s.fld.receive.2)

/-- `send_data_to_gpu` (`cuda.py:101-118`). -/
def sendData : Meth A O := fun s => Meth.seq (sendSpecies s.ptcl) sendFields s

/-- `receive_data_from_gpu` (`cuda.py:120-137`). -/
def recvData : Meth A O := fun s => Meth.seq (recvSpecies s.ptcl) recvFields s

/-- The arrays that a species has. -/
def Spc.Has (s : Spc A) : PName → Prop
  | .intSortingBuffer => s.nInt > 0
  | .id => s.tracked = true
  | .ionizationLevel | .wTimesLevel | .adkPower | .adkPrefactor | .adkExpPrefactor => s.ionizable = true
  | _ => True

/-- The arrays that the fields have. -/
def Flds.Has (f : Flds A) : ℕ × FName → Prop
  | (m, .iErPml) | (m, .iEtPml) | (m, .iBrPml) | (m, .iBtPml)
  | (m, .sEpPml) | (m, .sEmPml) | (m, .sBpPml) | (m, .sBmPml) => m < f.nm ∧ f.pml = true
  | (m, .sRhoNextZ) | (m, .sRhoNextXy) => m < f.nm ∧ f.cross = true
  | (m, _) => m < f.nm

/-- The array is on the GPU. -/
def DArr.OnGpu : DArr A → Prop
  | .gpu _ => True
  | .cpu _ => False

/-- All arrays of the species are on the GPU (`b`) or on the CPU (`¬ b`). -/
def Spc.At (b : Bool) (s : Spc A) : Prop := ∀ n, s.Has n → ((s.obj.arr n).OnGpu ↔ b = true)

/-- The same for the fields. -/
def Flds.At (b : Bool) (f : Flds A) : Prop := ∀ k, f.Has k → ((f.obj.arr k).OnGpu ↔ b = true)

/-- The same content at the same place. -/
def DArr.put (d : DArr A) (a : A) : DArr A :=
  match d with
  | .cpu _ => .cpu a
  | .gpu _ => .gpu a

open Classical in
/-- A piece of the PIC cycle: it changes contents and can raise an exception. On a GPU it launches kernels,
for which the data must be on the GPU, otherwise it calls functions for arrays of numpy.
Simplification: it needs all arrays of the simulation, and it never changes where an array is. -/
noncomputable def compute (f : Vals A → Vals A × Option PyErr) : Meth A O := fun s =>
  if (∀ i ∈ s.ptcl, (s.spc i).At s.useCuda) ∧ s.fld.At s.useCuda then
    ({ s with
        spc := fun i => { s.spc i with
          obj := { (s.spc i).obj with arr := fun n => ((s.spc i).obj.arr n).put ((f s.vals).1.spc i n) } }
        fld := { s.fld with
          obj := { s.fld.obj with arr := fun k => (s.fld.obj.arr k).put ((f s.vals).1.fld k) } } },
      (f s.vals).2)
  else (s, some (.typeError "array on the wrong device"))

open Classical in
/-- What a diagnostic writes about species and fields; h5py and numpy need the data on the CPU. -/
noncomputable def writeFile (ids : List ℕ) (fields : Bool) (w : Vals A → Except PyErr O) : Meth A O := fun s =>
  if (∀ i ∈ ids, (s.spc i).At false) ∧ (fields = true → s.fld.At false) then
    match w s.vals with
    | .ok o => ({ s with out := s.out ++ [o] }, none)
    | .error e => (s, some e)
  else (s, some (.typeError "Implicit conversion to a NumPy array is not allowed"))

/-- `ParticleDiagnostic.write_hdf5` for a list of species (`particle_diag.py:213-283`). -/
noncomputable def partDiag (ids : List ℕ) (w : Vals A → Except PyErr O) : Meth A O :=
  (recvSpecies ids).seq ((writeFile ids false w).seq (sendSpecies ids))

open Classical in
/-- `FieldDiagnostic.write_hdf5` from line 99 on (`field_diag.py:99-157`), and for one species
`ParticleChargeDensityDiagnostic.write_hdf5` from line 118 on. -/
noncomputable def fieldDiag (w : Vals A → Except PyErr O) : Meth A O := fun s =>
  Meth.seq (fun s => if s.fld.obj.useCuda then recvFields s else (s, none))
    (Meth.seq (writeFile [] true w)
      (fun s => if s.fld.obj.useCuda then sendFields s else (s, none))) s

/-- What happens between the two transfers of `Simulation.step`. -/
inductive Act (A O : Type) where
  | compute (f : Vals A → Vals A × Option PyErr)
  | partDiag (ids : List ℕ) (w : Vals A → Except PyErr O)
  | fieldDiag (w : Vals A → Except PyErr O)

/-- One such action. -/
noncomputable def Act.run : Act A O → Meth A O
  | .compute f => Place.compute f
  | .partDiag ids w => Place.partDiag ids w
  | .fieldDiag w => Place.fieldDiag w

/-- A sequence of actions. -/
noncomputable def runAll : List (Act A O) → Meth A O
  | [] => fun s => (s, none)
  | a :: as => a.run.seq (runAll as)

/-- `Simulation.step` (`main.py:320-561`): `acts` is what it does between lines 405 and 553. -/
noncomputable def step (acts : List (Act A O)) : Meth A O := fun s =>
  Meth.seq (fun s => if s.useCuda then sendData s else (s, none))
    (Meth.seq (runAll acts) (fun s => if s.useCuda then recvData s else (s, none))) s

/-- `GpuMemoryManager.__enter__` (`cuda.py:162-171`), with what `__init__` recorded. -/
def enter (fldWere : Bool) (were : List Bool) : Meth A O := fun s =>
  if s.useCuda then
    Meth.seq (fun s => if fldWere then (s, none) else sendFields s)
      (fun s => (((s.ptcl.zip were).foldl (fun s (iw : ℕ × Bool) =>
        if iw.2 then s else { s with spc := Function.update s.spc iw.1 (s.spc iw.1).send }) s), none)) s
  else (s, none)

/-- The loop over the species of `__exit__` (`cuda.py:179-181`). -/
def exitSpecies : List (ℕ × Bool) → Meth A O
  | [] => fun s => (s, none)
  | (i, was) :: rest => fun s =>
    if was then exitSpecies rest s
    else
      match (s.spc i).receive with
      | (p, none) => exitSpecies rest { s with spc := Function.update s.spc i p }
      | (p, some e) => ({ s with spc := Function.update s.spc i p }, some e)

/-- `GpuMemoryManager.__exit__` (`cuda.py:173-181`). -/
def exit (fldWere : Bool) (were : List Bool) : Meth A O := fun s =>
  if s.useCuda then
    Meth.seq (fun s => if fldWere then (s, none) else recvFields s)
      (fun s => exitSpecies (s.ptcl.zip were) s) s
  else (s, none)

/-- `with GpuMemoryManager(sim): body` (`cuda.py:145-160`): the body can raise, `__exit__` runs anyway;
an exception of `__exit__` replaces that of the body. Simplification: the body does not change the list of
the species. -/
def withManager (body : Meth A O) : Meth A O := fun s =>
  let fldWere := s.fld.obj.onGpu
  let were := s.ptcl.map fun i => (s.spc i).obj.onGpu
  match enter fldWere were s with
  | (s1, some e) => (s1, some e)
  | (s1, none) =>
    match body s1 with
    | (s2, e) =>
      match exit fldWere were s2 with
      | (s3, none) => (s3, e)
      | (s3, some e') => (s3, some e')

end Fbpic.Place
