import Verif.Props.C01_BoxOverlap
import Verif.Props.C02_BoxSet
import Verif.Props.C03_CellId
import Verif.Props.C04_CellToExp
import Verif.Props.C05_ParameterStore
import Verif.Props.C06_CartesianMesh
import Verif.Props.C17_Sizes
import Verif.Props.C43_FieldIndexMap
import Verif.Props.C44_FindOwningGeom
import Verif.Props.C45_Uniform
import Verif.Props.C45_Trials
import Verif.Props.C46_Sampling
import Verif.Props.C47_RSequence
import Verif.Props.C48_Hdf5
import Verif.Props.C49_Callbacks
import Verif.Props.C50_ImplicitHelper
import Verif.Props.C51_Boris
import Verif.Props.C07_Collapsed
import Verif.Props.C08_RefElement
import Verif.Props.C09_Clamp
import Verif.Props.C10_Jacobi
import Verif.Props.C11_BasisKernels
import Verif.Props.C12_ModeCounts
import Verif.Props.C12_Maxima

import Verif.Props.C13_Evaluate
import Verif.Props.C14_Project
import Verif.Props.C15_Bary
import Verif.Props.C16_BaryBlock
import Verif.Spec.Geometry2D
import Verif.Spec.GeometryAny
import Verif.Model.Bytes
import Verif.Model.PackedGeom2D
import Verif.Model.RemoteGeom
import Verif.Lemmas.Bytes
import Verif.Lemmas.PackedGeom2D
import Verif.Lemmas.RemoteGeom
import Verif.Props.C18_PackedGeom2D
import Verif.Props.C19_Truncated
import Verif.Props.C21_RemoteGeom
import Verif.Model.MeshHierarchy
import Verif.Lemmas.MeshHierarchy
import Verif.Spec.Cells
import Verif.Model.HaloCells
import Verif.Model.Claims
import Verif.Spec.CellOverlap
import Verif.Props.C23_HaloStencil
import Verif.Props.C24_Claims
import Verif.Props.C25_MeshTuple
import Verif.Props.C26_BoxClaims
import Verif.Model.GeomTransport3D
import Verif.Props.C20_Geom3D
import Verif.Model.GeomContainer
import Verif.Props.C22_Container
import Verif.Model.Periodic
import Verif.Props.C27_Periodic
import Verif.Props.C28_Extents
import Verif.Model.LinePlane
import Verif.Props.C30_LinePlane
import Verif.Props.C31_NearGeom
import Verif.Props.C29_Collections
import Verif.Props.C33_FindCells
import Verif.Props.C32_Nearest
import Verif.Props.C34_CoarseLookup
import Verif.Props.C35_DeviceLookup
import Verif.Props.C36_NewtonInverse
import Verif.Props.C37_ExitTolerance
import Verif.Props.C55_MapChain
import Verif.Props.C38_LinearMaps
import Verif.Props.C39_AffineOneStep
import Verif.Props.C41_Embedded
import Verif.Props.C40_Regular
import Verif.Props.C42_BoundingBox
import Verif.Props.C52_ParseEquals
import Verif.Props.C53_Parameters
import Verif.Props.C54_Sections
import Verif.Props.C56_RingExchange
import Verif.Props.C57_Halo2D
import Verif.Props.C58_ExtendHalos
import Verif.Props.C54_Accepted
import Verif.Props.C54_First
import Verif.Props.C59_BoundInside
import Verif.Props.C60_Halo3D
import Verif.Props.C61_ExtendHalos3D
import Verif.Props.C62_Ionisation
import Verif.Props.C63_Substeps
import Verif.Props.C64_MassBalance
import Verif.Props.C65_Neutral
import Verif.Props.C66_Verlet
import Verif.Props.C67_Diagnostics
import Verif.Props.C68_PartSys
import Verif.Props.C69_EqnSys
import Verif.Props.C70_Drift
import Verif.Props.C71_Budgets
import Verif.Props.C72_Diffusion
import Verif.Props.C73_DriftPlane
import Verif.Props.C74_SOL
import Verif.Props.C75_MeshHierarchy
import Verif.Props.C76_SubdivisionOrder
import Verif.Props.C77_PointInSubdomain
import Verif.Props.C78_Projection
import Verif.Props.C79_Evaluation
import Verif.Props.C80_Derivative
import Verif.Props.C81_Curved
import Verif.Props.C82_XMapNewton
import Verif.Props.C83_HexGeom
import Verif.Props.C84_EveryParticleFound
import Verif.Props.C84_Meshes
import Verif.Props.C84_Regular
import Verif.Props.C85_Distributed
import Verif.Props.C86_Moments
import Verif.Props.C87_PicLoop
import Verif.Props.C88_Vtk
import Verif.Props.C89_MassRecorder
import Verif.Props.C90_ParallelStep
import Verif.Props.C90_Mappers
import Verif.Props.C90_Example
import Verif.Props.C91_ParallelPic
import Verif.Props.C91_Mesh
import Verif.Props.C92_FieldValues
import Verif.Props.C93_Reflection
import Verif.Props.C94_Mappers
import Verif.Props.C95_PeriodicRounding
import Verif.Props.C96_SubStepRounding
import Verif.Props.C97_LookupRounding
import Verif.Props.C98_SeveralFields
import Verif.Props.C99_ExitStatus
import Verif.Props.C100_FloatBary
import Verif.Props.C101_InitialParticles
import Verif.Props.C102_NeutralSetup
import Verif.Props.C103_Launch
import Verif.Props.C104_HWParams
import Verif.Props.C105_FloatIonisation
import Verif.Props.C106_FloatBoris
import Verif.Props.C107_FloatRegular
import Verif.Props.C108_LineInit
import Verif.Props.C108_Example
import Verif.Props.C109_Mesh
import Verif.Props.C110_ParallelNeutral
import Verif.Props.C110_Serial
import Verif.Props.C110_Mesh
import Verif.Props.C111_ParallelDriftReduced
import Verif.Props.C111_TimeSteps
import Verif.Props.C112_FloatWalls
import Verif.Props.C112_FloatWallsPassed
import Verif.Props.C112_FloatWallsNormal
import Verif.Props.C113_AllRanks
import Verif.Props.C113_Cases
import Verif.Props.C114_FloatDeposit
import Verif.Props.C114_Orders
import Verif.Props.C115_FloatBasis
import Verif.Props.C115_Kernels
import Verif.Props.C116_FloatShapes
import Verif.Props.C116_Edge
import Verif.Props.C117_FloatCharge
import Verif.Props.C118_FloatNewton
import Verif.Props.C119_NanPositions
import Verif.Props.C119_NanRegular
import Verif.Props.C120_FloatRegular3
import Verif.Props.C120_Missed
import Verif.Props.C121_FloatNormals
import Verif.Props.C122_Potential
import Verif.Props.C123_FloatDiagnostics
import Verif.Props.C124_FloatPoints
import Verif.Props.C125_FloatVerlet
import Verif.Props.C126_VerletStability
import Verif.Props.C127_Drift
import Verif.Props.C128_Integrators
import Verif.Props.C129_ConstantField
import Verif.Props.C130_Liouville
import Verif.Props.C131_BorisVolume
