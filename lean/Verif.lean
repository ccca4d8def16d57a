import Verif.Lemmas.Arr
import Verif.Lemmas.Basis
import Verif.Lemmas.Bits
import Verif.Lemmas.BitsSetup
import Verif.Lemmas.Bounds
import Verif.Lemmas.BoundsSetup
import Verif.Lemmas.Bucket
import Verif.Lemmas.Device
import Verif.Lemmas.DeviceRun
import Verif.Lemmas.DeviceSched
import Verif.Lemmas.DeviceShared
import Verif.Lemmas.DiscAgree
import Verif.Lemmas.Double
import Verif.Lemmas.Exchange
import Verif.Lemmas.Family
import Verif.Lemmas.Frame
import Verif.Lemmas.FrameGeom
import Verif.Lemmas.FrameMesh
import Verif.Lemmas.FrameScheme
import Verif.Lemmas.HandlePrograms
import Verif.Lemmas.HandleUse
import Verif.Lemmas.Handles
import Verif.Lemmas.HexMetric
import Verif.Lemmas.HexMetric2
import Verif.Lemmas.HexMetric3
import Verif.Lemmas.IO
import Verif.Lemmas.Interrupt
import Verif.Lemmas.InterruptRead
import Verif.Lemmas.KernelExchange
import Verif.Lemmas.KernelFlux
import Verif.Lemmas.KernelRuns
import Verif.Lemmas.KernelSim
import Verif.Lemmas.KernelStage
import Verif.Lemmas.Kernels
import Verif.Lemmas.LateSend
import Verif.Lemmas.LinAlg
import Verif.Lemmas.LipCalc
import Verif.Lemmas.LipFlux
import Verif.Lemmas.LipOrder
import Verif.Lemmas.LipResidual
import Verif.Lemmas.Loops
import Verif.Lemmas.Mass
import Verif.Lemmas.Mesh
import Verif.Lemmas.MeshFaces
import Verif.Lemmas.MeshMain
import Verif.Lemmas.Network
import Verif.Lemmas.NormalKernels
import Verif.Lemmas.Normals
import Verif.Lemmas.Physics
import Verif.Lemmas.Positivity
import Verif.Lemmas.PostKernels
import Verif.Lemmas.Print
import Verif.Lemmas.ProtoSim
import Verif.Lemmas.QuadMetric
import Verif.Lemmas.Quadrature
import Verif.Lemmas.Refusal
import Verif.Lemmas.RefusalEnd
import Verif.Lemmas.RefusalFile
import Verif.Lemmas.RoundArith
import Verif.Lemmas.RoundCalc
import Verif.Lemmas.RoundCase
import Verif.Lemmas.RoundElem
import Verif.Lemmas.RoundExact
import Verif.Lemmas.RoundExtend
import Verif.Lemmas.RoundFlux
import Verif.Lemmas.RoundMain
import Verif.Lemmas.RoundMarch
import Verif.Lemmas.RoundPost
import Verif.Lemmas.RoundProgram
import Verif.Lemmas.RoundRank
import Verif.Lemmas.RoundRel
import Verif.Lemmas.RoundResidual
import Verif.Lemmas.RoundRun
import Verif.Lemmas.RoundSame
import Verif.Lemmas.RoundSetup
import Verif.Lemmas.RoundStep
import Verif.Lemmas.RoundSums
import Verif.Lemmas.RoundTables
import Verif.Lemmas.RoundUniform
import Verif.Lemmas.RoundVortex
import Verif.Lemmas.RoundWorld
import Verif.Lemmas.Setup
import Verif.Lemmas.SetupGeom
import Verif.Lemmas.SetupHex
import Verif.Lemmas.SetupInit
import Verif.Lemmas.SetupKernels
import Verif.Lemmas.SetupKernelsBase
import Verif.Lemmas.SetupMass
import Verif.Lemmas.SetupQuad
import Verif.Lemmas.Shape
import Verif.Lemmas.Solver
import Verif.Lemmas.SolverRun
import Verif.Lemmas.SolverWorld
import Verif.Lemmas.Stepper
import Verif.Lemmas.TimeOrder
import Verif.Lemmas.TimeOrderGlobal
import Verif.Lemmas.TimeOrderSmooth
import Verif.Lemmas.Views
import Verif.Lemmas.WorldExtend
import Verif.Model.Arr
import Verif.Model.Basis
import Verif.Model.Device
import Verif.Model.DeviceLaunch
import Verif.Model.DeviceRun
import Verif.Model.Double
import Verif.Model.Enums
import Verif.Model.Extents
import Verif.Model.Flux
import Verif.Model.FluxOps
import Verif.Model.GaussTables
import Verif.Model.Handles
import Verif.Model.IO
import Verif.Model.Interrupt
import Verif.Model.Kernels
import Verif.Model.LateSend
import Verif.Model.LinAlg
import Verif.Model.MachineMain
import Verif.Model.MachinePost
import Verif.Model.MachineThreads
import Verif.Model.Main
import Verif.Model.Mass
import Verif.Model.Mesh
import Verif.Model.Network
import Verif.Model.NormalKernels
import Verif.Model.Normals
import Verif.Model.Physics
import Verif.Model.Post
import Verif.Model.PostKernels
import Verif.Model.Print
import Verif.Model.Quadrature
import Verif.Model.ReadMesh
import Verif.Model.Refusal
import Verif.Model.Setup
import Verif.Model.SetupKernels
import Verif.Model.Shape
import Verif.Model.Solver
import Verif.Model.Utils
import Verif.Model.Views
import Verif.Model.Volume
import Verif.Props.Basis
import Verif.Props.Bits
import Verif.Props.BitsExample
import Verif.Props.BitsThreads
import Verif.Props.BitsThreadsExample
import Verif.Props.Bounds
import Verif.Props.Config
import Verif.Props.Conform
import Verif.Props.Conservation
import Verif.Props.ConserveExample
import Verif.Props.Convert
import Verif.Props.Device
import Verif.Props.Double
import Verif.Props.EulerDG
import Verif.Props.EulerExample
import Verif.Props.Exchange
import Verif.Props.FaceNodes
import Verif.Props.Flip
import Verif.Props.FlipExample
import Verif.Props.Frame
import Verif.Props.FrameExample
import Verif.Props.FreeStream
import Verif.Props.FreeStreamHex
import Verif.Props.FreeStreamHexExample
import Verif.Props.FreeStreamQuad
import Verif.Props.HLLC
import Verif.Props.HandlePrograms
import Verif.Props.Handles
import Verif.Props.IO
import Verif.Props.Interrupt
import Verif.Props.InterruptConvert
import Verif.Props.LateSend
import Verif.Props.Legendre
import Verif.Props.LegendreTensor
import Verif.Props.LinAlg
import Verif.Props.MachineMain
import Verif.Props.MachineMainExample
import Verif.Props.MachinePost
import Verif.Props.MachinePostExample
import Verif.Props.MachineThreads
import Verif.Props.MachineThreadsExample
import Verif.Props.MachineThreadsPost
import Verif.Props.Main
import Verif.Props.MainExample
import Verif.Props.Mass
import Verif.Props.Mesh
import Verif.Props.NormalRace
import Verif.Props.Normals
import Verif.Props.Physics
import Verif.Props.Positivity
import Verif.Props.Post
import Verif.Props.PostKernels
import Verif.Props.PostKernelsExample
import Verif.Props.Print
import Verif.Props.Quadrature
import Verif.Props.ReadMesh
import Verif.Props.Refusal
import Verif.Props.Renumber
import Verif.Props.RenumberExample
import Verif.Props.Rounding
import Verif.Props.RoundingExample
import Verif.Props.RoundingSetup
import Verif.Props.RoundingSetupExample
import Verif.Props.RoundingThreads
import Verif.Props.RoundingThreadsExample
import Verif.Props.RoundingVortex
import Verif.Props.Setup
import Verif.Props.SetupExample
import Verif.Props.SetupHex
import Verif.Props.SetupHexExample
import Verif.Props.SetupKernels
import Verif.Props.Shape
import Verif.Props.Solver
import Verif.Props.Stepper
import Verif.Props.TensorQuad
import Verif.Props.TimeOrder
import Verif.Props.TimeOrderExample
import Verif.Props.Utils
import Verif.Props.Views
import Verif.Props.Volume
import Verif.Props.Vortex
import Verif.Props.Wellposed
import Verif.Props.WellposedUniform
import Verif.Spec.Bits
import Verif.Spec.Bounds
import Verif.Spec.Device
import Verif.Spec.Euler
import Verif.Spec.EulerDG
import Verif.Spec.Flip
import Verif.Spec.Frame
import Verif.Spec.Handles
import Verif.Spec.HexDG
import Verif.Spec.IO
import Verif.Spec.Interrupt
import Verif.Spec.MachineCase
import Verif.Spec.MachineMain
import Verif.Spec.MachinePost
import Verif.Spec.MachineProgram
import Verif.Spec.MachineThreads
import Verif.Spec.Main
import Verif.Spec.Mesh
import Verif.Spec.PostKernels
import Verif.Spec.QuadDG
import Verif.Spec.Refusal
import Verif.Spec.Renumber
import Verif.Spec.Rounding
import Verif.Spec.Solver
import Verif.Spec.TimeOrder
import Verif.Spec.Views
import Verif.Spec.Wellposed
