import Verif.Lemmas.BackTransform
import Verif.Lemmas.Bessel
import Verif.Lemmas.BesselIndep
import Verif.Lemmas.BesselZero
import Verif.Lemmas.Comm
import Verif.Lemmas.Compton
import Verif.Lemmas.ComptonBatch
import Verif.Lemmas.ComptonLaw
import Verif.Lemmas.CustomSpectrum
import Verif.Lemmas.CustomSpectrumFit
import Verif.Lemmas.CustomSpectrumPulse
import Verif.Lemmas.CustomSpectrumTime
import Verif.Lemmas.Cylinder
import Verif.Lemmas.DensFunc
import Verif.Lemmas.Deposit
import Verif.Lemmas.DepositLinear
import Verif.Lemmas.Exchange
import Verif.Lemmas.FewCycle
import Verif.Lemmas.FieldExchange
import Verif.Lemmas.FieldFile
import Verif.Lemmas.FieldGather
import Verif.Lemmas.Float64
import Verif.Lemmas.Gather
import Verif.Lemmas.GpuConservation
import Verif.Lemmas.GpuDeposit
import Verif.Lemmas.GpuExchange
import Verif.Lemmas.GpuSelect
import Verif.Lemmas.GpuSlice
import Verif.Lemmas.GpuSplit
import Verif.Lemmas.InjRestart
import Verif.Lemmas.Injection
import Verif.Lemmas.Ionization
import Verif.Lemmas.Kernels
import Verif.Lemmas.KernelsBatch
import Verif.Lemmas.KleinNishina
import Verif.Lemmas.Laguerre
import Verif.Lemmas.LaserEnergy
import Verif.Lemmas.LaserFar
import Verif.Lemmas.LaserLong
import Verif.Lemmas.LaserParaxial
import Verif.Lemmas.Locality
import Verif.Lemmas.LocalityCoefs
import Verif.Lemmas.Maxwell
import Verif.Lemmas.MovingWindow
import Verif.Lemmas.NewSpecies
import Verif.Lemmas.Parallel
import Verif.Lemmas.ParticleConservation
import Verif.Lemmas.ParticleExchange
import Verif.Lemmas.Partition
import Verif.Lemmas.Pic
import Verif.Lemmas.PicAxis
import Verif.Lemmas.PicCheckpoint
import Verif.Lemmas.PicCloud
import Verif.Lemmas.PicCompton
import Verif.Lemmas.PicComptonRun
import Verif.Lemmas.PicCycle
import Verif.Lemmas.PicCycleRun
import Verif.Lemmas.PicCycleSrc
import Verif.Lemmas.PicCycleStep
import Verif.Lemmas.PicEvent
import Verif.Lemmas.PicEventGauss
import Verif.Lemmas.PicGauss
import Verif.Lemmas.PicGaussRun
import Verif.Lemmas.PicGpu
import Verif.Lemmas.PicGpuTrans
import Verif.Lemmas.PicHistory
import Verif.Lemmas.PicIonize
import Verif.Lemmas.PicLaser
import Verif.Lemmas.PicMirror
import Verif.Lemmas.PicMirrorRun
import Verif.Lemmas.PicMotion
import Verif.Lemmas.PicNeutral
import Verif.Lemmas.PicOpen
import Verif.Lemmas.PicOpenEnd
import Verif.Lemmas.PicOpenInv
import Verif.Lemmas.PicOpenRun
import Verif.Lemmas.PicOpenSplit
import Verif.Lemmas.PicOpenSplitEnd
import Verif.Lemmas.PicOpenSplitRun
import Verif.Lemmas.PicOpenStep
import Verif.Lemmas.PicOpenTotal
import Verif.Lemmas.PicPlasma
import Verif.Lemmas.PicReal
import Verif.Lemmas.PicRealCell
import Verif.Lemmas.PicRealRun
import Verif.Lemmas.PicRest
import Verif.Lemmas.PicRestRun
import Verif.Lemmas.PicRestStep
import Verif.Lemmas.PicRestart
import Verif.Lemmas.PicScale
import Verif.Lemmas.PicSetup
import Verif.Lemmas.PicSplit
import Verif.Lemmas.PicSplitCalls
import Verif.Lemmas.PicSplitRun
import Verif.Lemmas.PicSym
import Verif.Lemmas.PicTotal
import Verif.Lemmas.PicUnits
import Verif.Lemmas.PicUnitsCell
import Verif.Lemmas.PicUnitsRun
import Verif.Lemmas.PicVacuum
import Verif.Lemmas.Placement
import Verif.Lemmas.Prelude
import Verif.Lemmas.PtclFile
import Verif.Lemmas.Push
import Verif.Lemmas.RadialWeight
import Verif.Lemmas.RankInterval
import Verif.Lemmas.Ranks
import Verif.Lemmas.Riemann
import Verif.Lemmas.Ruyten
import Verif.Lemmas.Seed
import Verif.Lemmas.Shapes
import Verif.Lemmas.SortFlag
import Verif.Lemmas.SpectShift
import Verif.Lemmas.Spectral
import Verif.Lemmas.SpectralStep
import Verif.Lemmas.StencilReach
import Verif.Lemmas.Step
import Verif.Lemmas.Tactics
import Verif.Lemmas.Tracking
import Verif.Lemmas.Transform
import Verif.Lemmas.TruncPow
import Verif.Lemmas.UniformPlasma
import Verif.Lemmas.Vacuum
import Verif.Lemmas.Window
import Verif.Model.Adk
import Verif.Model.Antenna
import Verif.Model.AtomicData
import Verif.Model.BackTransform
import Verif.Model.BoostConv
import Verif.Model.Bunch
import Verif.Model.BunchPmd
import Verif.Model.CellVolume
import Verif.Model.Checkpoint
import Verif.Model.Comm
import Verif.Model.Compton
import Verif.Model.ComptonLaw
import Verif.Model.CustomSpectrum
import Verif.Model.Damping
import Verif.Model.DensFunc
import Verif.Model.Deposit
import Verif.Model.DiagFlow
import Verif.Model.DirectLaser
import Verif.Model.Exchange
import Verif.Model.ExternalField
import Verif.Model.FieldDiag
import Verif.Model.FieldFile
import Verif.Model.FieldGather
import Verif.Model.Float64
import Verif.Model.Gather
import Verif.Model.GpuDeposit
import Verif.Model.GpuDirect
import Verif.Model.GpuExchange
import Verif.Model.GpuSelect
import Verif.Model.GpuSlice
import Verif.Model.Hankel
import Verif.Model.InjRestart
import Verif.Model.Injection
import Verif.Model.Ionization
import Verif.Model.KernelCache
import Verif.Model.Kernels
import Verif.Model.KernelsBatch
import Verif.Model.LabFieldRuns
import Verif.Model.LabPtclSplit
import Verif.Model.LabRuns
import Verif.Model.LabSplit
import Verif.Model.LaserProfile
import Verif.Model.LaserPulse
import Verif.Model.Lasy
import Verif.Model.Mirror
import Verif.Model.NewSpecies
import Verif.Model.Parallel
import Verif.Model.ParticleExchange
import Verif.Model.Pic
import Verif.Model.PicCheckpoint
import Verif.Model.PicCompton
import Verif.Model.PicGpu
import Verif.Model.PicIonize
import Verif.Model.PicLaser
import Verif.Model.PicOpen
import Verif.Model.Picmi
import Verif.Model.Placement
import Verif.Model.Prelude
import Verif.Model.PtclDiag
import Verif.Model.PtclFile
import Verif.Model.Push
import Verif.Model.Ranks
import Verif.Model.Report
import Verif.Model.Script
import Verif.Model.Seed
import Verif.Model.Shapes
import Verif.Model.Smoothing
import Verif.Model.SortFlag
import Verif.Model.Sorting
import Verif.Model.SpaceCharge
import Verif.Model.SpectShift
import Verif.Model.Spectral
import Verif.Model.StencilReach
import Verif.Model.Step
import Verif.Model.Stretch
import Verif.Model.Tracking
import Verif.Model.Transform
import Verif.Model.Window
import Verif.Props.Adk
import Verif.Props.Antenna
import Verif.Props.AtomicData
import Verif.Props.BackTransform
import Verif.Props.BoostConv
import Verif.Props.Bunch
import Verif.Props.BunchPmd
import Verif.Props.Checkpoint
import Verif.Props.Compton
import Verif.Props.ComptonLaw
import Verif.Props.Continuity
import Verif.Props.CrossDeposit
import Verif.Props.CustomSpectrum
import Verif.Props.CylCharge
import Verif.Props.CylMaxwell
import Verif.Props.Cylinder
import Verif.Props.Damping
import Verif.Props.Decomposition
import Verif.Props.DensFunc
import Verif.Props.Deposit
import Verif.Props.DiagFlow
import Verif.Props.DirectLaser
import Verif.Props.ExternalField
import Verif.Props.FewCycle
import Verif.Props.FieldDiag
import Verif.Props.FieldExchange
import Verif.Props.FieldFile
import Verif.Props.FieldGather
import Verif.Props.Gather
import Verif.Props.GpuDeposit
import Verif.Props.GpuDirect
import Verif.Props.GpuExchange
import Verif.Props.GpuSelect
import Verif.Props.GpuSlice
import Verif.Props.GridPosition
import Verif.Props.InjRestart
import Verif.Props.Injection
import Verif.Props.Ionization
import Verif.Props.KernelCache
import Verif.Props.LabFieldRuns
import Verif.Props.LabPtclSplit
import Verif.Props.LabRuns
import Verif.Props.LabSplit
import Verif.Props.LaserEnergy
import Verif.Props.LaserParaxial
import Verif.Props.LaserProfile
import Verif.Props.Lasy
import Verif.Props.Locality
import Verif.Props.Maxwell
import Verif.Props.Mirror
import Verif.Props.MovingWindow
import Verif.Props.NewSpecies
import Verif.Props.Parallel
import Verif.Props.ParallelBatch
import Verif.Props.ParticleExchange
import Verif.Props.ParticleWrap
import Verif.Props.Pic
import Verif.Props.PicCheckpoint
import Verif.Props.PicCloud
import Verif.Props.PicCompton
import Verif.Props.PicCycle
import Verif.Props.PicGauss
import Verif.Props.PicGpu
import Verif.Props.PicIonize
import Verif.Props.PicLaser
import Verif.Props.PicMirror
import Verif.Props.PicNeutral
import Verif.Props.PicOpen
import Verif.Props.PicOpenSplit
import Verif.Props.PicOpenTotal
import Verif.Props.PicPlasma
import Verif.Props.PicReal
import Verif.Props.PicRest
import Verif.Props.PicSplit
import Verif.Props.PicUnits
import Verif.Props.PicVacuum
import Verif.Props.Picmi
import Verif.Props.Placement
import Verif.Props.PtclDiag
import Verif.Props.PtclFile
import Verif.Props.Push
import Verif.Props.Ranks
import Verif.Props.Report
import Verif.Props.Script
import Verif.Props.Seed
import Verif.Props.Smoothing
import Verif.Props.Sorting
import Verif.Props.SpaceCharge
import Verif.Props.SpectShift
import Verif.Props.StencilSign
import Verif.Props.Step
import Verif.Props.Stretch
import Verif.Props.Topology
import Verif.Props.Tracking
import Verif.Props.Transform
import Verif.Props.UniformPlasma
import Verif.Spec.Adk
import Verif.Spec.Antenna
import Verif.Spec.BackTransform
import Verif.Spec.Bessel
import Verif.Spec.BoostConv
import Verif.Spec.BunchPmd
import Verif.Spec.Checkpoint
import Verif.Spec.Compton
import Verif.Spec.ComptonLaw
import Verif.Spec.CustomSpectrum
import Verif.Spec.CylCharge
import Verif.Spec.CylMaxwell
import Verif.Spec.Cylinder
import Verif.Spec.DensFunc
import Verif.Spec.DirectLaser
import Verif.Spec.ExternalField
import Verif.Spec.FieldDiag
import Verif.Spec.FieldFile
import Verif.Spec.Float64
import Verif.Spec.GpuDirect
import Verif.Spec.GpuExchange
import Verif.Spec.GpuSelect
import Verif.Spec.GpuSlice
import Verif.Spec.InjRestart
import Verif.Spec.Injection
import Verif.Spec.Ionization
import Verif.Spec.KernelCache
import Verif.Spec.LabFieldRuns
import Verif.Spec.LabPtclSplit
import Verif.Spec.LabRuns
import Verif.Spec.LabSplit
import Verif.Spec.LaserProfile
import Verif.Spec.Lasy
import Verif.Spec.Layout
import Verif.Spec.Locality
import Verif.Spec.Maxwell
import Verif.Spec.Mirror
import Verif.Spec.NewSpecies
import Verif.Spec.Parallel
import Verif.Spec.Particle
import Verif.Spec.ParticleArrays
import Verif.Spec.Partition
import Verif.Spec.Pic
import Verif.Spec.PicCheckpoint
import Verif.Spec.PicCompton
import Verif.Spec.PicCycle
import Verif.Spec.PicGauss
import Verif.Spec.PicGpu
import Verif.Spec.PicIonize
import Verif.Spec.PicLaser
import Verif.Spec.PicMirror
import Verif.Spec.PicNeutral
import Verif.Spec.PicOpen
import Verif.Spec.PicOpenSplit
import Verif.Spec.PicOpenTotal
import Verif.Spec.PicPlasma
import Verif.Spec.PicReal
import Verif.Spec.PicRest
import Verif.Spec.PicSetup
import Verif.Spec.PicSplit
import Verif.Spec.PicUnits
import Verif.Spec.PicVacuum
import Verif.Spec.Picmi
import Verif.Spec.Placement
import Verif.Spec.PtclDiag
import Verif.Spec.PtclFile
import Verif.Spec.Push
import Verif.Spec.Ranks
import Verif.Spec.Report
import Verif.Spec.Script
import Verif.Spec.Seed
import Verif.Spec.Shapes
import Verif.Spec.Stencil
import Verif.Spec.Step
import Verif.Spec.Stretch
import Verif.Spec.Transform
import Verif.Spec.UniformPlasma
