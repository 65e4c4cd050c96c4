import Verif.Props.Defines
import Verif.Props.Array
import Verif.Props.IndexMapping
import Verif.Props.Transformer
import Verif.Props.ObjectPool
import Verif.Props.Serializer
import Verif.Props.SerArray
import Verif.Props.CommSchedule
import Verif.Props.Bits
import Verif.Props.Elements
import Verif.Props.PartitionAdj
import Verif.Props.MeshAdj
import Verif.Props.DirectLU
import Verif.Props.ODE
import Verif.Props.ODERk
import Verif.Props.Linear
import Verif.Props.Gmres
import Verif.Props.Gas
import Verif.Props.GasDeriv
import Verif.Props.Riemann
import Verif.Props.Roe
import Verif.Props.GasRatio
import Verif.Props.GasVisc
import Verif.Props.Limiters
import Verif.Props.LimiterNorm
import Verif.Props.LimiterTurn
import Verif.Props.Periodic
import Verif.Props.BaseFunction
import Verif.Props.DiffTensors
import Verif.Props.DiffMaps
import Verif.Props.BaseValue
import Verif.Props.ShapeFunc
import Verif.Props.Quadrature
import Verif.Props.RCM
import Verif.Props.Node2Cell
import Verif.Props.Faces
import Verif.Props.FacesGhost
import Verif.Props.GhostPrimary
import Verif.Props.FluxSum
import Verif.Props.Sweeps
import Verif.Props.DirectDominant
import Verif.Props.SweepsDirect
import Verif.Model.Recon
import Verif.Spec.Recon
import Verif.Props.Recon
import Verif.Props.RecIter
import Verif.Props.RecIterDiff
import Verif.Props.RecIterMin
import Verif.Props.RecIterDemo
import Verif.Model.Positivity
import Verif.Spec.Positivity
import Verif.Proof.Positivity
import Verif.Props.Positivity
import Verif.Props.PositivityAll
import Verif.Props.PositivityInc
import Verif.Props.PositivityStep
import Verif.Model.Reorder
import Verif.Spec.Reorder
import Verif.Proof.Reorder
import Verif.Proof.ReorderGraph
import Verif.Proof.ReorderMove
import Verif.Proof.ReorderNumber
import Verif.Proof.ReorderRun
import Verif.Props.Reorder
import Verif.Model.TimeStep
import Verif.Spec.TimeStep
import Verif.Proof.TimeStep
import Verif.Proof.TimeStepPos
import Verif.Props.TimeStep
import Verif.Props.TimeStepDemo
import Verif.Model.Elevation
import Verif.Spec.Elevation
import Verif.Proof.ElevSpan
import Verif.Proof.ElevChoose
import Verif.Proof.ElevNumber
import Verif.Proof.ElevGlobal
import Verif.Proof.ElevMesh
import Verif.Proof.ElevSeek
import Verif.Proof.ElevRun
import Verif.Proof.ElevBnd
import Verif.Props.Elevation
import Verif.Props.ElevationDemo
import Verif.Model.DofVec
import Verif.Spec.DofVec
import Verif.Proof.DofVec
import Verif.Props.DofVec
import Verif.Props.DofNorms
import Verif.Model.SmoothDt
import Verif.Spec.SmoothDt
import Verif.Proof.SmoothDt
import Verif.Props.SmoothDt
import Verif.Model.FaceZones
import Verif.Spec.FaceZones
import Verif.Proof.FaceZones
import Verif.Proof.FaceZonesRank
import Verif.Proof.FaceZonesAssert
import Verif.Props.FaceZones
import Verif.Model.BndMesh
import Verif.Spec.BndMesh
import Verif.Proof.BndMesh
import Verif.Proof.BndMeshRun
import Verif.Props.BndMesh
import Verif.Model.Boundary
import Verif.Spec.Boundary
import Verif.Props.Boundary
import Verif.Spec.Wall
import Verif.Props.Wall
import Verif.Model.BndRecord
import Verif.Spec.BndRecord
import Verif.Props.BndRecord
import Verif.Model.BndZones
import Verif.Spec.BndZones
import Verif.Props.BndZones
import Verif.Model.PairFile
import Verif.Spec.PairFile
import Verif.Props.PairFile
import Verif.Model.LimProc
import Verif.Spec.LimProc
import Verif.Proof.LimProcCell
import Verif.Proof.LimProc
import Verif.Props.LimProc
import Verif.Props.LimProcDemo
import Verif.Model.CharVar
import Verif.Spec.CharVar
import Verif.Proof.CharVar
import Verif.Props.CharVar
import Verif.Model.SmoothInd
import Verif.Spec.SmoothInd
import Verif.Proof.SmoothInd
import Verif.Proof.SmoothIndRank
import Verif.Props.SmoothInd
import Verif.Props.SmoothIndDemo
import Verif.Model.VtkOut
import Verif.Spec.VtkOut
import Verif.Proof.VtkOut
import Verif.Proof.VtkOutNeed
import Verif.Proof.VtkOutFlags
import Verif.Proof.VtkOutNumber
import Verif.Proof.VtkOutRecr
import Verif.Proof.VtkOutRecr2
import Verif.Proof.VtkOutPrep
import Verif.Proof.VtkOutConn
import Verif.Proof.VtkOutFile
import Verif.Proof.VtkOutAll
import Verif.Props.VtkOut
import Verif.Model.Bisect
import Verif.Spec.Bisect
import Verif.Proof.BisectTables
import Verif.Proof.BisectMeet
import Verif.Proof.BisectClosed
import Verif.Proof.BisectRun
import Verif.Proof.BisectElev
import Verif.Props.Bisect
import Verif.Props.BisectDemo
import Verif.Props.HllcMirror
import Verif.Model.Rotation
import Verif.Model.LiftDriver
import Verif.Spec.LiftDriver
import Verif.Proof.LiftDriver
import Verif.Props.LiftDriver
import Verif.Props.LiftLoop
import Verif.Model.MeshMove
import Verif.Props.Rotation
import Verif.Props.MeshMove
import Verif.Model.RotFrame
import Verif.Props.RotFrame
import Verif.Model.Rbf
import Verif.Spec.Rbf
import Verif.Props.Rbf
import Verif.Props.RbfMesh
import Verif.Props.RbfSmooth
import Verif.Model.MidPoint
import Verif.Spec.MidPoint
import Verif.Props.MidPoint
import Verif.Model.Vortex
import Verif.Spec.Vortex
import Verif.Props.Vortex
import Verif.Props.VortexField
import Verif.Model.LiftForce
import Verif.Spec.LiftForce
import Verif.Props.LiftForce
import Verif.Model.SymPlane
import Verif.Spec.SymPlane
import Verif.Props.SymPlane
import Verif.Model.TurbVisc
import Verif.Spec.TurbVisc
import Verif.Props.TurbVisc
import Verif.Model.TurbKOmega
import Verif.Props.TurbKOmega
import Verif.Model.TurbSource
import Verif.Props.TurbSource
import Verif.Model.TurbSA
import Verif.Props.TurbSA
