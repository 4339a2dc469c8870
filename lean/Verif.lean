import Verif.Conformance.Asibot
import Verif.Conformance.BasicCartesianControl
import Verif.Conformance.KdlSolver
import Verif.Conformance.KinRepresentation
import Verif.Conformance.ScrewTheory
import Verif.Ctrl.Calls
import Verif.Ctrl.Commands
import Verif.Ctrl.Consecutive
import Verif.Ctrl.Contract
import Verif.Ctrl.Controller
import Verif.Ctrl.CtlLemmas
import Verif.Ctrl.Cycle
import Verif.Ctrl.Ghost
import Verif.Ctrl.GhostLemmas
import Verif.Ctrl.Handlers
import Verif.Ctrl.History
import Verif.Ctrl.Open
import Verif.Ctrl.Pool
import Verif.Ctrl.Positions
import Verif.Ctrl.Prog
import Verif.Ctrl.Schedules
import Verif.Ctrl.Spec
import Verif.Ctrl.Threads
import Verif.Ctrl.Trajectory
import Verif.Ctrl.Velocity
import Verif.Ctrl.WithAsibot
import Verif.Ctrl.WithAsibotLemmas
import Verif.Ctrl.WithKdl
import Verif.Ctrl.WithSt
import Verif.Ctrl.Witness
import Verif.Kdl.Basic
import Verif.Kdl.Chain
import Verif.Kdl.ChainLemmas
import Verif.Kdl.Dynamics
import Verif.Kdl.DynamicsLemmas
import Verif.Kdl.Jacobian
import Verif.Kdl.Lemmas
import Verif.Kdl.OneChain
import Verif.Kdl.PathLemmas
import Verif.Kdl.RotVec
import Verif.Kdl.Rotations
import Verif.Kdl.Trajectory
import Verif.Kdl.TrajectoryLemmas
import Verif.Kdl.Tree
import Verif.Kdl.TreeDynamics
import Verif.Kdl.TreeLemmas
import Verif.Kdl.Twist
import Verif.Net.Names
import Verif.Net.NamesLemmas
import Verif.Net.Remote
import Verif.Net.RemoteLemmas
import Verif.Net.ServerLife
import Verif.Net.Stream
import Verif.Programs.ClientExample
import Verif.Programs.DhTable
import Verif.Programs.DhTableLemmas
import Verif.Programs.FileRobot
import Verif.Programs.FtCompensation
import Verif.Programs.Haar
import Verif.Programs.Keyboard
import Verif.Programs.KeyboardConfigure
import Verif.Programs.KeyboardSession
import Verif.Programs.Lifecycle
import Verif.Programs.LinearTrajectory
import Verif.Programs.PlanarArm
import Verif.Programs.ReachableCuboid
import Verif.Programs.ReachableCuboidLemmas
import Verif.Programs.ScrewTrajectory
import Verif.Programs.ScrewTrajectoryBent
import Verif.Programs.ScrewTrajectoryLemmas
import Verif.Programs.Sessions
import Verif.Programs.Streaming
import Verif.Programs.StreamingConfigure
import Verif.Programs.StreamingLemmas
import Verif.Programs.TestRobots
import Verif.Programs.TestRobotsLemmas
import Verif.Props.Asibot
import Verif.Props.AsibotChoice
import Verif.Props.AsibotJacobian
import Verif.Props.AsibotThreads
import Verif.Props.AsibotTools
import Verif.Props.Builder
import Verif.Props.BuilderSimplify
import Verif.Props.ClientExample
import Verif.Props.Commands
import Verif.Props.ConfigSelector
import Verif.Props.ControlLoop
import Verif.Props.Converters
import Verif.Props.Devices
import Verif.Props.DhTable
import Verif.Props.Duality
import Verif.Props.Dynamics
import Verif.Props.Energy
import Verif.Props.FixedAxes
import Verif.Props.FtAxes
import Verif.Props.FtCompensation
import Verif.Props.Gripper
import Verif.Props.IdSolver
import Verif.Props.IkComplete
import Verif.Props.IkProblem
import Verif.Props.IkRange
import Verif.Props.IkReach
import Verif.Props.InPlace
import Verif.Props.JointSpeeds
import Verif.Props.KdlConfig
import Verif.Props.KdlSolver
import Verif.Props.KdlThreads
import Verif.Props.KdlTreeConfig
import Verif.Props.KdlTreeSolver
import Verif.Props.Keyboard
import Verif.Props.KeyboardSession
import Verif.Props.KeyboardStart
import Verif.Props.KeyboardThread
import Verif.Props.Lever
import Verif.Props.Lifecycle
import Verif.Props.Limits
import Verif.Props.LinearMotion
import Verif.Props.Lines
import Verif.Props.LinesSt
import Verif.Props.LookAhead
import Verif.Props.Memory
import Verif.Props.MemoryHistory
import Verif.Props.Messages
import Verif.Props.Names
import Verif.Props.OneChain
import Verif.Props.OpenController
import Verif.Props.OtherClients
import Verif.Props.PadenKahan
import Verif.Props.PadenKahanThree
import Verif.Props.Parameters
import Verif.Props.PardosGotor
import Verif.Props.PardosGotorFour
import Verif.Props.Periods
import Verif.Props.Placement
import Verif.Props.PlanarArm
import Verif.Props.Poe
import Verif.Props.Proximity
import Verif.Props.ReachableCuboid
import Verif.Props.Remote
import Verif.Props.ReprUnits
import Verif.Props.Representation
import Verif.Props.Reversal
import Verif.Props.Robots
import Verif.Props.ScrewTrajectory
import Verif.Props.ServerLife
import Verif.Props.Sessions
import Verif.Props.StSolver
import Verif.Props.Stopping
import Verif.Props.Streaming
import Verif.Props.StreamingStart
import Verif.Props.Streams
import Verif.Props.ToolChange
import Verif.Props.Torques
import Verif.Props.Tracking
import Verif.Props.TrajGen
import Verif.Props.TransformPort
import Verif.Props.TreeBodies
import Verif.Props.TreeDuality
import Verif.Props.TreeDynamics
import Verif.Props.TreeEnergy
import Verif.Props.TreeTorques
import Verif.Props.VisualServo
import Verif.Props.Waiting
import Verif.Props.WithAsibot
import Verif.Props.WithKdl
import Verif.Props.WithSt
import Verif.Props.WithStCases
import Verif.Repr.Converters
import Verif.Repr.KinRepresentation
import Verif.Repr.ReprLemmas
import Verif.Repr.ReprMeaning
import Verif.Repr.ReprSpec
import Verif.Screw.Angles
import Verif.Screw.Arms
import Verif.Screw.Builder
import Verif.Screw.BuilderLemmas
import Verif.Screw.BuilderPlaced
import Verif.Screw.BuilderSearch
import Verif.Screw.ConfigLemmas
import Verif.Screw.ConfigSelector
import Verif.Screw.Exact
import Verif.Screw.IkBranch
import Verif.Screw.IkComplete
import Verif.Screw.IkLemmas
import Verif.Screw.IkProblem
import Verif.Screw.IkReach
import Verif.Screw.IkSteps
import Verif.Screw.IkTrace
import Verif.Screw.IkView
import Verif.Screw.MatrixExponential
import Verif.Screw.PlaneLemmas
import Verif.Screw.Poe
import Verif.Screw.PoeLemmas
import Verif.Screw.Signature
import Verif.Screw.SignatureLemmas
import Verif.Screw.SignatureSearch
import Verif.Screw.SimplifyLemmas
import Verif.Screw.SubproblemLemmas
import Verif.Screw.Subproblems
import Verif.Solver.Asibot
import Verif.Solver.AsibotConfig
import Verif.Solver.AsibotLemmas
import Verif.Solver.AsibotThreads
import Verif.Solver.IdSolver
import Verif.Solver.InPlace
import Verif.Solver.KdlConfig
import Verif.Solver.KdlDynamics
import Verif.Solver.KdlSolver
import Verif.Solver.KdlThreads
import Verif.Solver.KdlTreeConfig
import Verif.Solver.KdlTreeSolver
import Verif.Solver.StSolver
import Verif.Solver.TrajGen
