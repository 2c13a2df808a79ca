import Verif.Base
import Verif.Bindings.Attributes
import Verif.Bindings.AttributesProps
import Verif.Bindings.Contacts
import Verif.Bindings.ContactsProps
import Verif.Bindings.Dicts
import Verif.Bindings.DictsProps
import Verif.Bindings.Lifetime
import Verif.Bindings.LifetimeProps
import Verif.Bindings.Lines
import Verif.Bindings.LinesProps
import Verif.Bindings.PyExpr
import Verif.Bindings.PyExprProps
import Verif.Bindings.Sequences
import Verif.Bindings.SequencesProps
import Verif.Bindings.SolverCopy
import Verif.Bindings.SolverCopyProps
import Verif.Bindings.Truncate
import Verif.Bindings.TruncateProps
import Verif.Bindings.Viz
import Verif.Bindings.VizProps
import Verif.Dynamics.BackProps
import Verif.Dynamics.Config
import Verif.Dynamics.ConfigProps
import Verif.Dynamics.ConstrainedProps
import Verif.Dynamics.ContactSession
import Verif.Dynamics.ContactSessionProps
import Verif.Dynamics.ContactWorkProps
import Verif.Dynamics.Contacts
import Verif.Dynamics.ContactsProps
import Verif.Dynamics.DynGearsProps
import Verif.Dynamics.ExactProps
import Verif.Dynamics.Examples
import Verif.Dynamics.FrameTasks
import Verif.Dynamics.FreeForceProps
import Verif.Dynamics.IntegrateProps
import Verif.Dynamics.LimitsProps
import Verif.Dynamics.LoopProps
import Verif.Dynamics.MotorProps
import Verif.Dynamics.OptimalProps
import Verif.Dynamics.OrderProps
import Verif.Dynamics.OrientationProps
import Verif.Dynamics.RelPosProps
import Verif.Dynamics.SelfCollisionProps
import Verif.Dynamics.SettingsProps
import Verif.Dynamics.Solver
import Verif.Dynamics.SolverLemmas
import Verif.Dynamics.Spring
import Verif.Dynamics.SpringProps
import Verif.Dynamics.Tasks
import Verif.Dynamics.TasksProps
import Verif.Dynamics.TotalProps
import Verif.Humanoid.BetweenProps
import Verif.Humanoid.Biped
import Verif.Humanoid.BipedProps
import Verif.Humanoid.CacheProps
import Verif.Humanoid.Camera
import Verif.Humanoid.CameraProps
import Verif.Humanoid.CaptureProps
import Verif.Humanoid.ClearanceProps
import Verif.Humanoid.ClipProps
import Verif.Humanoid.DelayProps
import Verif.Humanoid.DelayWalkProps
import Verif.Humanoid.DummySession
import Verif.Humanoid.DummySessionProps
import Verif.Humanoid.DummyWalk
import Verif.Humanoid.DummyWalkProps
import Verif.Humanoid.ExactProps
import Verif.Humanoid.ExactProps2
import Verif.Humanoid.ExactProps3
import Verif.Humanoid.ExactProps4
import Verif.Humanoid.FeetMotionProps
import Verif.Humanoid.FeetPlanProps
import Verif.Humanoid.FeetProps
import Verif.Humanoid.Footsteps
import Verif.Humanoid.InitialPose
import Verif.Humanoid.InitialPoseProps
import Verif.Humanoid.Lipm
import Verif.Humanoid.LipmProps
import Verif.Humanoid.LookupProps
import Verif.Humanoid.MirrorProps
import Verif.Humanoid.OptimalZmpProps
import Verif.Humanoid.OverlapClipProps
import Verif.Humanoid.OverlapProps
import Verif.Humanoid.PidProps
import Verif.Humanoid.PlanCostProps
import Verif.Humanoid.PlanCostSparse
import Verif.Humanoid.PlanExists
import Verif.Humanoid.PlanProps
import Verif.Humanoid.PlanReach
import Verif.Humanoid.PlannerProps
import Verif.Humanoid.PlannerSession
import Verif.Humanoid.PlannerSessionProps
import Verif.Humanoid.PyFootstep
import Verif.Humanoid.PyFootstepProps
import Verif.Humanoid.Queries
import Verif.Humanoid.QueriesProps
import Verif.Humanoid.Quintic
import Verif.Humanoid.QuinticMoveProps
import Verif.Humanoid.QuinticProps
import Verif.Humanoid.ReferenceProps
import Verif.Humanoid.Replan
import Verif.Humanoid.ReplanMotionProps
import Verif.Humanoid.ReplanProps
import Verif.Humanoid.ReplanSessionProps
import Verif.Humanoid.ReplanSupportsProps
import Verif.Humanoid.ReplanWalkProps
import Verif.Humanoid.ReplanWhenProps
import Verif.Humanoid.Replay
import Verif.Humanoid.ReplayProps
import Verif.Humanoid.SplineDelayProps
import Verif.Humanoid.StartProps
import Verif.Humanoid.StraightProps
import Verif.Humanoid.SupportEq
import Verif.Humanoid.SupportEqProps
import Verif.Humanoid.SupportFrameProps
import Verif.Humanoid.SupportsProps
import Verif.Humanoid.Swing
import Verif.Humanoid.SwingMoveProps
import Verif.Humanoid.SwingProps
import Verif.Humanoid.TranslateProps
import Verif.Humanoid.TranslateWalkProps
import Verif.Humanoid.TrimFeetProps
import Verif.Humanoid.TrimProps
import Verif.Humanoid.UpdateSupports
import Verif.Humanoid.UpdateSupportsProps
import Verif.Humanoid.WalkEquivProps
import Verif.Humanoid.WalkTasks
import Verif.Humanoid.WalkTasksProps
import Verif.Humanoid.Walks
import Verif.Humanoid.Wpg
import Verif.Humanoid.WpgSession
import Verif.Humanoid.WpgSessionProps
import Verif.Humanoid.ZmpProps
import Verif.Kinematics.AddCalls
import Verif.Kinematics.AddCallsProps
import Verif.Kinematics.BestProps
import Verif.Kinematics.BestVelocityProps
import Verif.Kinematics.ConeProps
import Verif.Kinematics.ConstrainedProps
import Verif.Kinematics.Constraints
import Verif.Kinematics.ConstraintsProps
import Verif.Kinematics.ConstraintsProps2
import Verif.Kinematics.ConstraintsProps3
import Verif.Kinematics.ConstraintsProps4
import Verif.Kinematics.DescentProps
import Verif.Kinematics.ExactProps
import Verif.Kinematics.FramePair
import Verif.Kinematics.FramePairProps
import Verif.Kinematics.FrameTasks
import Verif.Kinematics.FrameTasksProps
import Verif.Kinematics.FrameTasksProps2
import Verif.Kinematics.GearsProps
import Verif.Kinematics.LoopProps
import Verif.Kinematics.OrderProps
import Verif.Kinematics.Registry
import Verif.Kinematics.RegistryProps
import Verif.Kinematics.ScaledProps
import Verif.Kinematics.SettingsProps
import Verif.Kinematics.Solver
import Verif.Kinematics.SolverExamples
import Verif.Kinematics.SolverLemmas
import Verif.Kinematics.SolverLimits
import Verif.Kinematics.SolverProps
import Verif.Kinematics.SolverSolve
import Verif.Kinematics.StandstillProps
import Verif.Kinematics.Tasks
import Verif.Kinematics.TasksProps
import Verif.Kinematics.TasksProps2
import Verif.Kinematics.TotalProps
import Verif.Kinematics.WeightsProps
import Verif.Kinematics.WheelProps
import Verif.Problem.Constraint
import Verif.Problem.ConstraintProps
import Verif.Problem.ConvexProps
import Verif.Problem.DefinedProps
import Verif.Problem.ExactQR
import Verif.Problem.Expression
import Verif.Problem.ExpressionLemmas
import Verif.Problem.ExpressionProps
import Verif.Problem.Integrator
import Verif.Problem.IntegratorExp
import Verif.Problem.IntegratorProps
import Verif.Problem.LeastProps
import Verif.Problem.OrderProps
import Verif.Problem.Ownership
import Verif.Problem.OwnershipProps
import Verif.Problem.Polygon
import Verif.Problem.PolygonProps
import Verif.Problem.Problem
import Verif.Problem.ProblemAssembled
import Verif.Problem.ProblemEqualityProps
import Verif.Problem.ProblemLemmas
import Verif.Problem.ProblemMiscProps
import Verif.Problem.ProblemQPLemmas
import Verif.Problem.ProblemQPProps
import Verif.Problem.ProblemSolveProps
import Verif.Problem.ProblemSpec
import Verif.Problem.QRExists
import Verif.Problem.Session
import Verif.Problem.SessionProps
import Verif.Problem.SparseCostProps
import Verif.Problem.Sparsity
import Verif.Problem.SparsityProps
import Verif.Problem.WeightsProps
import Verif.Robot.Accessors
import Verif.Robot.AccessorsProps
import Verif.Robot.BaseProps
import Verif.Robot.Collisions
import Verif.Robot.CollisionsProps
import Verif.Robot.ExactProps
import Verif.Robot.Hessian
import Verif.Robot.HessianProps
import Verif.Robot.Load
import Verif.Robot.LoadProps
import Verif.Robot.Slerp
import Verif.Robot.SlerpProps
import Verif.Robot.TorqueProps
import Verif.Robot.Viewer
import Verif.Robot.ViewerProps
import Verif.Robot.Wrapper
import Verif.StdMap
import Verif.Tools.CubicSpline
import Verif.Tools.CubicSplineProps
import Verif.Tools.DirectionsProps
import Verif.Tools.ExactProps
import Verif.Tools.HistoryProps
import Verif.Tools.Mask
import Verif.Tools.MaskProps
import Verif.Tools.Polynom
import Verif.Tools.PolynomProps
import Verif.Tools.Segment
import Verif.Tools.SegmentAlignProps
import Verif.Tools.SegmentProps
import Verif.Tools.Status
import Verif.Tools.StatusProps
import Verif.Tools.SvdExists
import Verif.Tools.Transform
import Verif.Tools.TransformProps
import Verif.Tools.Utils
import Verif.Tools.UtilsProps
