import Verif.Model.AfqmcIntegrals
import Verif.Model.Aggregates
import Verif.Model.AufbauOcc
import Verif.Model.Bilinear
import Verif.Model.BilinearStep
import Verif.Model.BosonBuild
import Verif.Model.BosonInit
import Verif.Model.BosonJK
import Verif.Model.BosonStart
import Verif.Model.CcIntegrals
import Verif.Model.Ccsd
import Verif.Model.CcsdStep
import Verif.Model.CholOrth
import Verif.Model.Diis
import Verif.Model.DipoleBasis
import Verif.Model.DiscreteField
import Verif.Model.Displacement
import Verif.Model.DisplacementCpp
import Verif.Model.DressedJK
import Verif.Model.Einsum
import Verif.Model.EinsumSyntax
import Verif.Model.Energy
import Verif.Model.EstimatorElec
import Verif.Model.FakeMpi
import Verif.Model.FarField
import Verif.Model.FciHubbard
import Verif.Model.FciIntegrals
import Verif.Model.FciPhonon
import Verif.Model.Fdtd
import Verif.Model.FdtdBloch
import Verif.Model.FdtdEnergy
import Verif.Model.FdtdGrid
import Verif.Model.FdtdLayer
import Verif.Model.FdtdMetal
import Verif.Model.FdtdObjects
import Verif.Model.FdtdOutput
import Verif.Model.FdtdParity
import Verif.Model.FdtdSource
import Verif.Model.FdtdTri
import Verif.Model.Fft
import Verif.Model.ForceBiasOld
import Verif.Model.GradTogether
import Verif.Model.Green
import Verif.Model.Gutzwiller
import Verif.Model.HHInts
import Verif.Model.Hopping
import Verif.Model.HubbardInts
import Verif.Model.Hyperbolic
import Verif.Model.Incoherent
import Verif.Model.Integrals
import Verif.Model.JointFields
import Verif.Model.JointStep
import Verif.Model.Kernels
import Verif.Model.Lattice
import Verif.Model.LineShapes
import Verif.Model.LowRankPlan
import Verif.Model.Measure
import Verif.Model.MpiGrid
import Verif.Model.MsdOverlap
import Verif.Model.MultiDet
import Verif.Model.Offset
import Verif.Model.Options
import Verif.Model.Packing
import Verif.Model.Photon
import Verif.Model.PolarMap
import Verif.Model.PopulationControl
import Verif.Model.ProductStep
import Verif.Model.Propagate
import Verif.Model.PropagatorBuild
import Verif.Model.PyTiles
import Verif.Model.QedAfqmc
import Verif.Model.QedFci
import Verif.Model.QedFciDensity
import Verif.Model.QedLib
import Verif.Model.QedccExec
import Verif.Model.QedccInput
import Verif.Model.QedccOpt
import Verif.Model.QedccRef
import Verif.Model.QedccSingle
import Verif.Model.QedccTensors
import Verif.Model.QmcIntegrals
import Verif.Model.Qmd
import Verif.Model.Run
import Verif.Model.ScQedHF
import Verif.Model.ScfCycle
import Verif.Model.ScfLoop
import Verif.Model.Schedule
import Verif.Model.Seeding
import Verif.Model.Spin
import Verif.Model.Stats
import Verif.Model.Step
import Verif.Model.Subspace
import Verif.Model.Support
import Verif.Model.TiledTensor
import Verif.Model.TrialBoson
import Verif.Model.Vmc
import Verif.Model.Walkers
import Verif.Model.WeightUpdate
import Verif.Lemmas.Branching
import Verif.Lemmas.Control
import Verif.Lemmas.Einsum
import Verif.Lemmas.EinsumBlock
import Verif.Lemmas.EinsumDerive
import Verif.Lemmas.EinsumOne
import Verif.Lemmas.EinsumSearch
import Verif.Lemmas.EinsumStage
import Verif.Lemmas.GaussDrift
import Verif.Lemmas.GaussMean
import Verif.Lemmas.Kron
import Verif.Lemmas.QedFci
import Verif.Lemmas.Qedcc
import Verif.Lemmas.QedccAttr
import Verif.Lemmas.QedccCheckDress
import Verif.Lemmas.QedccCheckS
import Verif.Lemmas.QedccCheckSingle1
import Verif.Lemmas.QedccCheckSingle21
import Verif.Lemmas.QedccCheckSingle22
import Verif.Lemmas.QedccCheckT
import Verif.Lemmas.QedccCheckU1
import Verif.Lemmas.QedccCheckU12
import Verif.Lemmas.QedccCheckU12Opt
import Verif.Lemmas.QedccCheckU21
import Verif.Lemmas.QedccCheckU21Mode
import Verif.Lemmas.QedccCheckU21Opt
import Verif.Lemmas.QedccCheckU22
import Verif.Lemmas.QedccCheckU22Opt
import Verif.Lemmas.QedccDress
import Verif.Lemmas.QedccDressRun
import Verif.Lemmas.QedccErr
import Verif.Lemmas.QedccEval
import Verif.Lemmas.QedccExample
import Verif.Lemmas.QedccMin
import Verif.Lemmas.QedccProof
import Verif.Lemmas.Resampling
import Verif.Lemmas.Resampling2
import Verif.Lemmas.Tensor
import Verif.Props.AfqmcIntegrals
import Verif.Props.Aggregates
import Verif.Props.AufbauOcc
import Verif.Props.Autocorr
import Verif.Props.Bilinear
import Verif.Props.BilinearStep
import Verif.Props.BosonBuild
import Verif.Props.BosonInit
import Verif.Props.BosonJK
import Verif.Props.BosonStart
import Verif.Props.Branching
import Verif.Props.BranchingActs
import Verif.Props.BranchingVariants
import Verif.Props.CcIntegrals
import Verif.Props.Ccsd
import Verif.Props.CcsdStep
import Verif.Props.CholOrth
import Verif.Props.Cholesky
import Verif.Props.ControlRun
import Verif.Props.Diis
import Verif.Props.DipoleBasis
import Verif.Props.DiscreteField
import Verif.Props.Displacement
import Verif.Props.DisplacementCpp
import Verif.Props.DisplacementOperator
import Verif.Props.DressedJK
import Verif.Props.Dressing
import Verif.Props.Energy
import Verif.Props.EnergyBoson
import Verif.Props.EstimatorElec
import Verif.Props.Exchange
import Verif.Props.FakeMpi
import Verif.Props.FarField
import Verif.Props.FciHubbard
import Verif.Props.FciIntegrals
import Verif.Props.FciPhonon
import Verif.Props.Fdtd
import Verif.Props.FdtdBloch
import Verif.Props.FdtdEnergy
import Verif.Props.FdtdGrid
import Verif.Props.FdtdLayer
import Verif.Props.FdtdMetal
import Verif.Props.FdtdObjects
import Verif.Props.FdtdOutput
import Verif.Props.FdtdParity
import Verif.Props.FdtdSource
import Verif.Props.FdtdTri
import Verif.Props.Fft
import Verif.Props.ForceBias
import Verif.Props.ForceBiasOld
import Verif.Props.GradTogether
import Verif.Props.Green
import Verif.Props.Gutzwiller
import Verif.Props.HHInts
import Verif.Props.Hopping
import Verif.Props.HubbardInts
import Verif.Props.Hyperbolic
import Verif.Props.Incoherent
import Verif.Props.Integrals
import Verif.Props.JointFields
import Verif.Props.JointStep
import Verif.Props.JointWeight
import Verif.Props.Kernels
import Verif.Props.Lattice
import Verif.Props.LineShapes
import Verif.Props.LowRankPlan
import Verif.Props.ManyBody
import Verif.Props.MeanFields
import Verif.Props.Measure
import Verif.Props.MpiGrid
import Verif.Props.MsdOverlap
import Verif.Props.MultiDet
import Verif.Props.Offset
import Verif.Props.Options
import Verif.Props.OrgDensity
import Verif.Props.Packing
import Verif.Props.Photon
import Verif.Props.PolarMap
import Verif.Props.ProductStep
import Verif.Props.Propagate
import Verif.Props.PropagatorBuild
import Verif.Props.PyTiles
import Verif.Props.QedAfqmc
import Verif.Props.QedFci
import Verif.Props.QedFciDensity
import Verif.Props.QedFciElec
import Verif.Props.QedLib
import Verif.Props.QedccDress
import Verif.Props.QedccExec
import Verif.Props.QedccS
import Verif.Props.QedccSingle
import Verif.Props.QedccT
import Verif.Props.QedccU1
import Verif.Props.QedccU12
import Verif.Props.QedccU21
import Verif.Props.QedccU22
import Verif.Props.QmcIntegrals
import Verif.Props.Qmd
import Verif.Props.Resampling
import Verif.Props.Restart
import Verif.Props.Run
import Verif.Props.ScQedHF
import Verif.Props.ScfCycle
import Verif.Props.ScfLoop
import Verif.Props.Schedule
import Verif.Props.Seeding
import Verif.Props.Spin
import Verif.Props.Splitting
import Verif.Props.Stats
import Verif.Props.Step
import Verif.Props.Subspace
import Verif.Props.Support
import Verif.Props.TiledTensor
import Verif.Props.TrialBias
import Verif.Props.TrialBoson
import Verif.Props.Vmc
import Verif.Props.Walkers
import Verif.Props.WeightProduct
import Verif.Props.WeightUpdate
import Verif.Axioms
