import Verif.Model.Actuator
import Verif.Model.Averaging
import Verif.Model.AvgSetup
import Verif.Model.BSpline
import Verif.Model.BcCoverage
import Verif.Model.Boundary
import Verif.Model.Control
import Verif.Model.DataProbe
import Verif.Model.DebugCheck
import Verif.Model.Diagnostics
import Verif.Model.Edge
import Verif.Model.Eigen
import Verif.Model.EigenEdge
import Verif.Model.ElemContinuity
import Verif.Model.ElemGeometry
import Verif.Model.ElemGrad
import Verif.Model.ElemKernel
import Verif.Model.ElemLoop
import Verif.Model.ElemSource
import Verif.Model.EqLoad
import Verif.Model.ExactSol
import Verif.Model.ExplicitFilter
import Verif.Model.FaceSearch
import Verif.Model.Fem
import Verif.Model.FemElem
import Verif.Model.GasDynamics
import Verif.Model.GasNonConformal
import Verif.Model.HdfTable
import Verif.Model.HeatTransfer
import Verif.Model.InitConst
import Verif.Model.KernelBuild
import Verif.Model.LegacyElem
import Verif.Model.LinSys
import Verif.Model.LinSysFinal
import Verif.Model.LookAhead
import Verif.Model.MainLog
import Verif.Model.MatProps
import Verif.Model.MeshDisp
import Verif.Model.MeshGeom
import Verif.Model.MeshMotion
import Verif.Model.Mms
import Verif.Model.Mono
import Verif.Model.NcFlowVof
import Verif.Model.NcSearch
import Verif.Model.NodeSource
import Verif.Model.NonConformal
import Verif.Model.Nso
import Verif.Model.Numerics
import Verif.Model.Output
import Verif.Model.Overset
import Verif.Model.Parsing
import Verif.Model.Peclet
import Verif.Model.Periodic
import Verif.Model.Png
import Verif.Model.PointSearch
import Verif.Model.ProjWall
import Verif.Model.Quadratic
import Verif.Model.QuadraticSearch
import Verif.Model.Radiation
import Verif.Model.Registration
import Verif.Model.Residual
import Verif.Model.Schedule
import Verif.Model.Schedule2
import Verif.Model.ShapeFunctions
import Verif.Model.SixDofForce
import Verif.Model.SolnOpts
import Verif.Model.SolutionNorm
import Verif.Model.SolveBack
import Verif.Model.SplineFile
import Verif.Model.StartFields
import Verif.Model.SurfaceForce
import Verif.Model.Thermo
import Verif.Model.Time
import Verif.Model.Transfer
import Verif.Model.TurbElem
import Verif.Model.TurbPost
import Verif.Model.Turbulence
import Verif.Model.UserField
import Verif.Model.UserProfile
import Verif.Model.UserTable
import Verif.Model.Vof
import Verif.Model.WallAssembly
import Verif.Model.WallElem
import Verif.Model.WallFunction
import Verif.Model.WallOde
import Verif.Model.XferMesh
import Verif.Model.XferSetup
import Verif.Proofs.Averaging
import Verif.Proofs.Diagnostics
import Verif.Proofs.Edge
import Verif.Proofs.ElemGeometry
import Verif.Proofs.ElemGrad
import Verif.Proofs.ElemGrad2
import Verif.Proofs.ElemGrad2D
import Verif.Proofs.ElemGrad3
import Verif.Proofs.ElemKernel
import Verif.Proofs.ElemOpen
import Verif.Proofs.ExplicitFilter
import Verif.Proofs.Fem
import Verif.Proofs.Fem2
import Verif.Proofs.HdfTable
import Verif.Proofs.LegacyElem
import Verif.Proofs.LinSysAssembly
import Verif.Proofs.LinSysAssembly2
import Verif.Proofs.LinSysNumbering
import Verif.Proofs.LinSysNumbering2
import Verif.Proofs.MatProps
import Verif.Proofs.MeshDisp
import Verif.Proofs.NonConformal
import Verif.Proofs.Nso
import Verif.Proofs.Numerics
import Verif.Proofs.Output
import Verif.Proofs.Pde
import Verif.Proofs.Quadratic
import Verif.Proofs.Quadratic2D
import Verif.Proofs.Quadratic2DArea
import Verif.Proofs.Quadratic3D
import Verif.Proofs.Quadratic3DArea
import Verif.Proofs.Quadratic3DVol
import Verif.Proofs.Quadrature
import Verif.Proofs.Radiation
import Verif.Proofs.TurbElem
import Verif.Proofs.UserProfile
import Verif.Proofs.UserTable
import Verif.Proofs.Vof
import Verif.Proofs.Vof2
import Verif.Proofs.WallElem
import Verif.Proofs.WallOde
import Verif.Props.Actuator
import Verif.Props.ActuatorDrag
import Verif.Props.ActuatorSearch
import Verif.Props.ActuatorSpread
import Verif.Props.Averaging
import Verif.Props.AvgSetup
import Verif.Props.BcCoverage
import Verif.Props.Boundary
import Verif.Props.Boundary2
import Verif.Props.Boundary3
import Verif.Props.Control
import Verif.Props.DataProbe
import Verif.Props.DebugCheck
import Verif.Props.Diagnostics
import Verif.Props.Edge
import Verif.Props.Eigen
import Verif.Props.Eigen3
import Verif.Props.EigenEdge
import Verif.Props.EigenPerturb
import Verif.Props.EigenSimd
import Verif.Props.EigenStep
import Verif.Props.ElemGeometry
import Verif.Props.ElemGrad
import Verif.Props.ElemKernel
import Verif.Props.ElemKernel2
import Verif.Props.ElemKernel3
import Verif.Props.ElemKernel4
import Verif.Props.ElemKernel5
import Verif.Props.ElemLoop
import Verif.Props.ElemRegular
import Verif.Props.ElemSource
import Verif.Props.EqLoad
import Verif.Props.ExactSol
import Verif.Props.ExactSol2
import Verif.Props.ExactSol3
import Verif.Props.ExactSol4
import Verif.Props.ExplicitFilter
import Verif.Props.FaceSearch
import Verif.Props.Fem
import Verif.Props.Fem2
import Verif.Props.Fem3
import Verif.Props.FemElem
import Verif.Props.FemFace
import Verif.Props.FemQuad
import Verif.Props.GasDynamics
import Verif.Props.GasNonConformal
import Verif.Props.HdfConverters
import Verif.Props.HdfTable
import Verif.Props.HeatTransfer
import Verif.Props.HeatTransfer2
import Verif.Props.InitConst
import Verif.Props.KernelBuild
import Verif.Props.LegacyElem
import Verif.Props.LinSys
import Verif.Props.LinSysBuild
import Verif.Props.LinSysFinal1
import Verif.Props.LinSysFinal2
import Verif.Props.LinSysFinal3
import Verif.Props.LinSysFinal4
import Verif.Props.LinSysFinal5
import Verif.Props.LinSysGraph
import Verif.Props.LinSysNumbering
import Verif.Props.LinSysParallel
import Verif.Props.LookAhead
import Verif.Props.MainLog
import Verif.Props.MatProps
import Verif.Props.MeshDisp
import Verif.Props.MeshDispMass
import Verif.Props.MeshGeom
import Verif.Props.MeshMotion
import Verif.Props.Mms
import Verif.Props.Mono
import Verif.Props.NcFlowVof
import Verif.Props.NcSearch
import Verif.Props.NodeSource
import Verif.Props.NodeSource2
import Verif.Props.NonConformal
import Verif.Props.NonConformal2
import Verif.Props.NonConformal3
import Verif.Props.Nso
import Verif.Props.Numerics
import Verif.Props.Output
import Verif.Props.Overset
import Verif.Props.Overset2
import Verif.Props.Overset3
import Verif.Props.Parsing
import Verif.Props.Peclet
import Verif.Props.Periodic
import Verif.Props.Png
import Verif.Props.PointSearch
import Verif.Props.PointSearchPrism
import Verif.Props.PointSearchSurf
import Verif.Props.ProjWall
import Verif.Props.Quadratic
import Verif.Props.QuadraticMaps
import Verif.Props.QuadraticMisc
import Verif.Props.QuadraticSearch
import Verif.Props.Quadrature
import Verif.Props.Radiation
import Verif.Props.Radiation2
import Verif.Props.Radiation3
import Verif.Props.Radiation4
import Verif.Props.Registration
import Verif.Props.Residual
import Verif.Props.Schedule
import Verif.Props.Schedule2
import Verif.Props.ShapeFunctions
import Verif.Props.SixDof
import Verif.Props.SixDofForce
import Verif.Props.SolnOpts
import Verif.Props.SolutionNorm
import Verif.Props.SolveBack
import Verif.Props.Spline1D
import Verif.Props.Spline1DLinear
import Verif.Props.SplineBasis
import Verif.Props.SplineFile
import Verif.Props.SplineKnots
import Verif.Props.SplineLU
import Verif.Props.SplineND
import Verif.Props.StartFields
import Verif.Props.SurfaceForce
import Verif.Props.SurfaceForce2
import Verif.Props.SurfaceForce3
import Verif.Props.Thermo
import Verif.Props.Tighten
import Verif.Props.Tighten2
import Verif.Props.Tighten3
import Verif.Props.Tighten4
import Verif.Props.Tighten5
import Verif.Props.Tighten6
import Verif.Props.Time
import Verif.Props.Transfer
import Verif.Props.TurbElem
import Verif.Props.TurbPost1
import Verif.Props.TurbPost2
import Verif.Props.TurbPost3
import Verif.Props.Turbulence
import Verif.Props.UserField
import Verif.Props.UserProfile
import Verif.Props.UserTable
import Verif.Props.Vof
import Verif.Props.Vof2
import Verif.Props.Vof3
import Verif.Props.Vof4
import Verif.Props.Vof5
import Verif.Props.WallAssembly
import Verif.Props.WallElem
import Verif.Props.WallFunction
import Verif.Props.WallOde
import Verif.Props.XferMesh
import Verif.Props.XferSetup
import Verif.Spec.Actuator
import Verif.Spec.BSpline
import Verif.Spec.Diagnostics
import Verif.Spec.Eigen
import Verif.Spec.ElemGeometry
import Verif.Spec.ElemGrad
import Verif.Spec.ElemKernel
import Verif.Spec.ExplicitFilter
import Verif.Spec.Fem
import Verif.Spec.FemElem
import Verif.Spec.HdfTable
import Verif.Spec.LegacyElem
import Verif.Spec.MatProps
import Verif.Spec.MeshDisp
import Verif.Spec.MeshGeom
import Verif.Spec.MeshMotion
import Verif.Spec.NonConformal
import Verif.Spec.Nso
import Verif.Spec.Pde
import Verif.Spec.PointSearch
import Verif.Spec.Quadratic
import Verif.Spec.ShapeFunctions
import Verif.Spec.TurbElem
import Verif.Spec.UserTable
import Verif.Spec.Vof
import Verif.Spec.WallElem
import Verif.Spec.WallOde
