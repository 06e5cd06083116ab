import Verif.Props.Rigid
import Verif.Props.Joints
import Verif.Props.Tree
import Verif.Props.Dynamics
import Verif.Props.TreeFalse
import Verif.Props.Twist
import Verif.Props.Mass
import Verif.Props.Step
import Verif.Props.Constraints
import Verif.Props.Limits
import Verif.Props.Energy
import Verif.Props.Graph
import Verif.Props.Replace
import Verif.Props.Register
import Verif.Props.Parse
import Verif.Props.Dofs
import Verif.Props.Views
import Verif.Props.Controllers
import Verif.Props.Simulate
import Verif.Props.Names
import Verif.Props.SubFrames
import Verif.Props.Collisions
import Verif.Props.ContactUpdate
import Verif.Props.Observers
import Verif.Props.Logger
import Verif.Props.Color
import Verif.Props.Drawer
import Verif.Props.Graft
import Verif.Props.Robots
import Verif.Props.Depth
import Verif.Props.Human36
import Verif.Props.Urdf
import Verif.Props.UrdfTree
import Verif.Props.UrdfLoad
import Verif.Props.UrdfXml
import Verif.Props.UrdfView
import Verif.Props.WorldLimits
import Verif.Props.GaussSeidel
import Verif.Props.World
import Verif.Props.Resume
import Verif.Props.Join
import Verif.Props.Place
import Verif.Props.Units
import Verif.Spec.Weld
import Verif.Props.Weld
import Verif.Spec.Moor
import Verif.Props.Moor
import Verif.Spec.Shuffle
import Verif.Props.Family
import Verif.Props.Shuffle
import Verif.Model.Icub
import Verif.Spec.Icub
import Verif.Proofs.Web
import Verif.Proofs.Icub
import Verif.Props.Icub
import Verif.Proofs.IcubRows
import Verif.Props.IcubMirror
import Verif.Props.IcubMass
import Verif.Props.Tolerances
import Verif.Props.ReplaceChain
import Verif.Model.Collada
import Verif.Spec.Drawer
import Verif.Spec.Collada
import Verif.Props.Collada
import Verif.Spec.ColladaShapes
import Verif.Props.ColladaShapes
import Verif.Spec.ColladaIds
import Verif.Props.ColladaIds
import Verif.Spec.ColladaInertia
import Verif.Props.ColladaInertia
import Verif.Model.Perf
import Verif.Spec.Perf
import Verif.Props.Perf
import Verif.Model.Daenim
import Verif.Spec.Daenim
import Verif.Props.Daenim
import Verif.Spec.Image
import Verif.Proofs.Image
import Verif.Props.Image
import Verif.Model.Matlab
import Verif.Spec.Matlab
import Verif.Proofs.Matlab
import Verif.Props.Matlab
import Verif.Props.MatlabState
import Verif.Props.MatlabShapes
import Verif.Props.MatlabRefused
import Verif.Props.MatlabConvert
import Verif.Props.MatlabHuman
import Verif.Props.MatlabSim
import Verif.Props.MatlabRooted
import Verif.Props.MatlabMotion
import Verif.Props.MatlabWeight
import Verif.Props.MatlabDjac
import Verif.Props.SolverLimits
import Verif.Props.PDStable
import Verif.Props.PDSettle
import Verif.Props.PDRun
import Verif.Model.Contact
import Verif.Spec.Drop
import Verif.Props.Contact
import Verif.Props.Drop
import Verif.Props.DropRest
import Verif.Model.LimitWorld
import Verif.Props.LimitRun
import Verif.Model.SoftFinger
import Verif.Props.SoftFails
import Verif.Props.Momentum
import Verif.Props.MomentumRun
import Verif.Props.MomentumRuns
import Verif.Props.ContactEnergy
import Verif.Props.Lines
import Verif.Props.Pydaenim
import Verif.Props.ObsRun
import Verif.Props.Pin
import Verif.Props.Hooks
import Verif.Props.HooksExample
import Verif.Props.Converge
import Verif.Props.ConvergeRun
import Verif.Props.ConvergeTurn
import Verif.Props.ConvergeTurnRun
import Verif.Props.EnergyPath
import Verif.Props.EnergyRun
import Verif.Props.EnergyMonitor
import Verif.Props.EnergyFalse
import Verif.Props.ConvergeFly
import Verif.Props.ConvergeFlyRun
import Verif.Props.ConvergeFlyRuns
import Verif.Props.EnergyFly
import Verif.Props.EnergyFlyMonitor
