import Verif.Model.PicIonize
import Verif.Model.ComptonLaw

/-!
# A whole simulation with Compton scattering

The cycle of `Model/Pic.lean` with the call to `handle_elementary_processes` (main.py:502-503,
particles.py:498-508) between the first half of the position push and the deposition of the current, for species
with a `compton_scatterer`. The species refer to each other by their number in `sim.ptcl`. The random numbers and
the uninitialised memory are an arbitrary argument. Not part of this model: a species that is both ionizable and
scatters, tracking of the new photons (C20), a species that is its own target.
-/

namespace Fbpic.Pic

open Transform ExternalField Step

noncomputable section

/-- A `ComptonScatterer`: the number of the target species, the laser, the incoming photons in the frame of the
simulation, the ratio of the weights, the size of the batches and the constants `PI_RE_2`, `INV_MC`.
compton.py:86-136, inline_functions.py:13-14 -/
structure Scatterer where
  target : ℕ
  laser : ComptonLaser
  photon : FourMom
  ratio : ℝ
  batch : ℕ
  piRe2 : ℝ
  invMC : ℝ

/-- `ComptonScatterer.__init__` as called by `activate_compton`; `c` and `h` are the speed of light and Planck's
constant, `boost` the Lorentz factor and the velocity of the boosted frame. particles.py:436-439, compton.py:86-136 -/
def Scatterer.init (cl h piRe2 invMC : ℝ) (sps : List Species) (target : ℕ)
    (energy wavelength waist ctau z0 ratio : ℝ) (boost : Option (ℝ × ℝ)) : Except PyErr Scatterer :=
  match sps[target]? with
  | none => .error (.indexError "no such species")
  | some ph =>
    if ph.q ≠ 0 then .error (.assertionError "target_species.q == 0")
    else if ratio < 1 then .error (.assertionError "ratio_w_electron_photon >= 1")
    else
      let b := boost.getD (1, 0)
      .ok { target := target
            laser := ComptonLaser.init cl h energy wavelength waist ctau z0 b.1 b.2
            photon := incomingPhoton (h / wavelength) b.1 b.2
            ratio := ratio, batch := 10, piRe2 := piRe2, invMC := invMC }

/-- What is not determined by the code: the random numbers that species number `id` meets in iteration `i`, and the
uninitialised fields of the new photons. compton.py:158-166, cuda_numba_utils.py:88-96 -/
structure Luck where
  draws : ℕ → ℕ → ComptonDraws
  junk : ℕ → ℕ → ℕ → Comp → ℝ

/-- The electrons of a species, for the kernels. -/
def Species.electrons (sp : Species) : ComptonElec (ℝ × ℝ × ℝ) where
  Ntot := sp.ptcl.length
  pos := fun i => let p := (sp.ptcl.getD i noPtcl).push; (p.x, p.y, p.z)
  mom := fun i => (sp.ptcl.getD i noPtcl).push.mom
  w := fun i => (sp.ptcl.getD i noPtcl).w

/-- The arrays of the photons, after `reallocate_and_copy_old`. -/
def Species.photonRecs (sp : Species) (i : ℕ) : PhotonRec (ℝ × ℝ × ℝ) :=
  let p := sp.ptcl.getD i noPtcl
  ⟨(p.push.x, p.push.y, p.push.z), p.push.mom.ux, p.push.mom.uy, p.push.mom.uz, p.push.mom.invGamma, p.w⟩

/-- A macroparticle with the data of a photon. -/
def photonPtcl (r : PhotonRec (ℝ × ℝ × ℝ)) (level : ℕ) (F : Comp → ℝ) : Ptcl :=
  ⟨⟨r.pos.1, r.pos.2.1, r.pos.2.2, ⟨r.px, r.py, r.pz, r.invGamma⟩, level⟩, r.w, F⟩

/-- The photon species with arrays of length `Ntot`: the fields of the old photons are copied, those of the new ones
are not initialised. compton.py:208-213, cuda_numba_utils.py:88-96 -/
def Species.setPhotons (sp : Species) (Ntot : ℕ) (r : ℕ → PhotonRec (ℝ × ℝ × ℝ)) (junk : ℕ → Comp → ℝ) : Species :=
  { sp with ptcl := (List.range Ntot).map fun i =>
      if i < sp.ptcl.length then photonPtcl (r i) (sp.ptcl.getD i noPtcl).push.level (sp.ptcl.getD i noPtcl).F
      else photonPtcl (r i) 0 (junk i) }

/-- The momenta of the electrons are written. numba_methods.py:259-264 -/
def Species.setMomenta (sp : Species) (mom : ℕ → ElecMom) : Species :=
  { sp with ptcl := sp.ptcl.mapIdx fun i p => { p with push := { p.push with mom := mom i } } }

/-- `nscatter_per_elec`: the number of photons of electron `i`. A negative number would act as 0 in the loops, but not
in the sums; it does not occur (C18_number). compton.py:171-200, numba_methods.py:70-91 -/
def Scatterer.count (S : Scatterer) (cl dt t : ℝ) (D : ComptonDraws) (el : ComptonElec (ℝ × ℝ × ℝ)) (i : ℕ) : ℕ :=
  let n := S.laser.density (el.pos i).1 (el.pos i).2.1 (el.pos i).2.2 (cl * t)
  let q := S.photon
  (nScatter (scatteringProbability S.piRe2 S.invMC cl dt (el.mom i) n q.p (q.px / q.p) (q.py / q.p) (q.pz / q.p))
    S.ratio (D.num i)).toNat

/-- The batches of the kernels. compton.py:135, 154 -/
def Scatterer.batches (S : Scatterer) : IonParams := ⟨S.batch, 0, 0, false⟩

/-- `self.compton_scatterer.handle_scattering(self, t)` for species number `id`. compton.py:139-240 -/
def Scatterer.handle (S : Scatterer) (cl dt t : ℝ) (D : ComptonDraws) (junk : ℕ → Comp → ℝ) (id : ℕ)
    (sps : List Species) : Except PyErr (List Species) :=
  match sps[id]?, sps[S.target]? with
  | some e, some ph =>
    let el := e.electrons
    let n := S.count cl dt t D el
    let cum := cumsum1d (nPerBatch S.batches el.Ntot n)
    let created := cum (S.batches.nBatch el.Ntot)
    if created = 0 then .ok sps
    else
      let r := scatterAll S.batches S.invMC (1 / S.ratio) S.photon el n D ph.ptcl.length cum ph.photonRecs
      .ok ((sps.modify S.target fun ph => ph.setPhotons (ph.ptcl.length + created) r.1 junk).modify id
        fun e => e.setMomenta r.2)
  | _, _ => .error (.indexError "no such species")

/-- `for species in ptcl: species.handle_elementary_processes(self.time + 0.5*dt)`, main.py:502-503. `scat` gives
the `compton_scatterer` attribute of each species. -/
def comptonAll (scat : ℕ → Option Scatterer) (cl dt : ℝ) (ch : Luck) (s : Sim) : Except PyErr Sim := do
  let sps ← (List.range s.species.length).foldlM (fun sps id =>
    match scat id with
    | none => (.ok sps : Except PyErr (List Species))
    | some S => S.handle cl dt (s.time + 0.5 * dt) (ch.draws s.iteration id) (ch.junk s.iteration id) id sps) s.species
  pure { s with species := sps }

/-- A run with Compton scattering. -/
def Cfg.callsCompton (c : Cfg) [NeZero c.Nz] (scat : ℕ → Option Scatterer) (ch : Luck) (L : List (ℕ × Opts)) (s : Sim) :
    Except PyErr Sim :=
  c.callsEv (comptonAll scat c.k.c c.dt ch) L s

end

end Fbpic.Pic
