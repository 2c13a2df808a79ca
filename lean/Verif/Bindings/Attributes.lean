/-
Model of the attributes of the Python objects: the members that the bindings read and write.
  /repo/bindings/expose-dynamics.cpp 26-247, expose-footsteps.cpp 24-59, expose-kinematics.cpp 23-269, expose-parameters.cpp 21-53,
  expose-problem.cpp 37-137, expose-robot-wrapper.cpp 27-219, expose-tools.cpp 56-91, expose-walk-pattern-generator.cpp 27-207
Not modelled: the contacts (Contacts.lean), the attributes that are computed from other members (`T_world_frame` and `T_a_b` of the frame tasks), the
conversions of the values, and the objects that Python shares with the members.
-/
namespace Verif.Bindings

/-- An attribute of a Python class: its name, the member that is read, the member that is written. `add_property` and `def_readwrite` of
Boost.Python; /repo/bindings/expose-tools.cpp 90-91 for instance. -/
structure PyAttr where
  name : String
  getter : String
  setter : Option String
  deriving DecidableEq

/-- An attribute for one member that Python can write (`def_readwrite`, `add_property` with the member twice), expose-tools.cpp 56. -/
def PyAttr.rw (m : String) : PyAttr := ⟨m, m, some m⟩

/-- An attribute for one member that Python can only read (`def_readonly`, `add_property` with the member once), expose-tools.cpp 61. -/
def PyAttr.ro (m : String) : PyAttr := ⟨m, m, none⟩

/-- The attributes of `DynamicsSolverResult`, expose-dynamics.cpp 26-29. -/
def attrsDynamicsSolverResult : List PyAttr :=
  [.ro "success", .rw "tau", .rw "qdd", .rw "tau_contacts"]

/-- The attributes of `DynamicsSolver`, expose-dynamics.cpp 92-131. -/
def attrsDynamicsSolver : List PyAttr :=
  [.ro "problem", .rw "damping", .rw "dt", .rw "gravity_only", .rw "torque_cost", .rw "extra_force", .ro "robot"]

/-- The attributes of `Prioritized`, expose-tools.cpp 61-62. -/
def attrsPrioritized : List PyAttr :=
  [.ro "name", .ro "priority"]

/-- The attributes of `DynamicsTask`, and of its base, expose-dynamics.cpp 162-167. -/
def attrsDynamicsTask : List PyAttr :=
  [.rw "A", .rw "b", .rw "kp", .rw "kd", .ro "error", .ro "derror"] ++ attrsPrioritized

/-- The attributes of `DynamicsPositionTask`, and of its base, expose-dynamics.cpp 170-174. -/
def attrsDynamicsPositionTask : List PyAttr :=
  [.ro "frame_index", .rw "target_world", .rw "dtarget_world", .rw "ddtarget_world", .rw "mask"] ++ attrsDynamicsTask

/-- The attributes of `DynamicsCoMTask`, and of its base, expose-dynamics.cpp 177-180. -/
def attrsDynamicsCoMTask : List PyAttr :=
  [.rw "target_world", .rw "dtarget_world", .rw "ddtarget_world", .rw "mask"] ++ attrsDynamicsTask

/-- The attributes of `DynamicsRelativePositionTask`, and of its base, expose-dynamics.cpp 184-187. -/
def attrsDynamicsRelativePositionTask : List PyAttr :=
  [.rw "target", .rw "dtarget", .rw "ddtarget", .rw "mask"] ++ attrsDynamicsTask

/-- The attributes of `DynamicsRelativeOrientationTask`, and of its base, expose-dynamics.cpp 191-194. -/
def attrsDynamicsRelativeOrientationTask : List PyAttr :=
  [.rw "R_a_b", .rw "omega_a_b", .rw "domega_a_b", .rw "mask"] ++ attrsDynamicsTask

/-- The attributes of `DynamicsOrientationTask`, and of its base, expose-dynamics.cpp 197-200. -/
def attrsDynamicsOrientationTask : List PyAttr :=
  [.rw "R_world_frame", .rw "omega_world", .rw "domega_world", .rw "mask"] ++ attrsDynamicsTask

/-- The attributes of `AvoidSelfCollisionsDynamicsConstraint`, and of its base, expose-dynamics.cpp 246-247. -/
def attrsAvoidSelfCollisionsDynamicsConstraint : List PyAttr :=
  [.rw "self_collisions_margin", .rw "self_collisions_trigger"] ++ attrsPrioritized

/-- The attributes of `Footstep`, expose-footsteps.cpp 24-27. -/
def attrsFootstep : List PyAttr :=
  [.rw "side", .rw "foot_length", .rw "foot_width", .rw "frame"]

/-- The attributes of `Support`, expose-footsteps.cpp 52-59. -/
def attrsSupport : List PyAttr :=
  [.rw "footsteps", .rw "t_start", .rw "elapsed_ratio", .rw "time_ratio", .rw "start", .rw "end", .rw "target_world_dcm"]

/-- The attributes of `KinematicsSolver`, expose-kinematics.cpp 23-27. -/
def attrsKinematicsSolver : List PyAttr :=
  [.ro "problem", .rw "dt", .ro "N", .ro "scale", .ro "robot"]

/-- The attributes of `Task`, and of its base, expose-kinematics.cpp 135-136. -/
def attrsTask : List PyAttr :=
  [.ro "A", .ro "b"] ++ attrsPrioritized

/-- The attributes of `PositionTask`, and of its base, expose-kinematics.cpp 142-145. -/
def attrsPositionTask : List PyAttr :=
  [.ro "frame_index", .rw "target_world", .rw "mask"] ++ attrsTask

/-- The attributes of `RelativePositionTask`, and of its base, expose-kinematics.cpp 149-152. -/
def attrsRelativePositionTask : List PyAttr :=
  [.ro "frame_a", .ro "frame_b", .rw "target", .rw "mask"] ++ attrsTask

/-- The attributes of `CoMTask`, and of its base, expose-kinematics.cpp 155-157. -/
def attrsCoMTask : List PyAttr :=
  [.rw "target_world", .rw "mask"] ++ attrsTask

/-- The attributes of `OrientationTask`, and of its base, expose-kinematics.cpp 160-162. -/
def attrsOrientationTask : List PyAttr :=
  [.ro "frame_index", .rw "R_world_frame", .rw "mask"] ++ attrsTask

/-- The attributes of `RelativeOrientationTask`, and of its base, expose-kinematics.cpp 166-169. -/
def attrsRelativeOrientationTask : List PyAttr :=
  [.ro "frame_a", .ro "frame_b", .rw "R_a_b", .rw "mask"] ++ attrsTask

/-- The attributes of `AxisAlignTask`, and of its base, expose-kinematics.cpp 195-198. -/
def attrsAxisAlignTask : List PyAttr :=
  [.ro "frame_index", .rw "axis_frame", .rw "targetAxis_world"] ++ attrsTask

/-- The attributes of `WheelTask`, and of its base, expose-kinematics.cpp 213-216. -/
def attrsWheelTask : List PyAttr :=
  [.ro "joint", .ro "radius", .ro "omniwheel", .rw "T_world_surface"] ++ attrsTask

/-- The attributes of `DistanceTask`, and of its base, expose-kinematics.cpp 220-222. -/
def attrsDistanceTask : List PyAttr :=
  [.ro "frame_a", .ro "frame_b", .rw "distance"] ++ attrsTask

/-- The attributes of `CentroidalMomentumTask`, and of its base, expose-kinematics.cpp 225-226. -/
def attrsCentroidalMomentumTask : List PyAttr :=
  [.ro "mask", .rw "L_world"] ++ attrsTask

/-- The attributes of `ManipulabilityTask`, and of its base, expose-kinematics.cpp 234-236. -/
def attrsManipulabilityTask : List PyAttr :=
  [⟨"lambda_", "lambda", some "lambda"⟩, .rw "minimize", .ro "manipulability"] ++ attrsTask

/-- The attributes of `AvoidSelfCollisionsKinematicsConstraint`, and of its base, expose-kinematics.cpp 243-244. -/
def attrsAvoidSelfCollisionsKinematicsConstraint : List PyAttr :=
  [.rw "self_collisions_margin", .rw "self_collisions_trigger"] ++ attrsPrioritized

/-- The attributes of `CoMPolygonConstraint`, and of its base, expose-kinematics.cpp 247-250. -/
def attrsCoMPolygonConstraint : List PyAttr :=
  [.rw "polygon", .rw "dcm", .rw "omega", .rw "margin"] ++ attrsPrioritized

/-- The attributes of `JointSpaceHalfSpacesConstraint`, and of its base, expose-kinematics.cpp 254-255. -/
def attrsJointSpaceHalfSpacesConstraint : List PyAttr :=
  [.rw "A", .rw "b"] ++ attrsPrioritized

/-- The attributes of `ConeConstraint`, and of its base, expose-kinematics.cpp 259-261. -/
def attrsConeConstraint : List PyAttr :=
  [.rw "angle_max", .rw "N", .rw "range"] ++ attrsPrioritized

/-- The attributes of `YawConstraint`, and of its base, expose-kinematics.cpp 265-265. -/
def attrsYawConstraint : List PyAttr :=
  [.rw "angle_max"] ++ attrsPrioritized

/-- The attributes of `DistanceConstraint`, and of its base, expose-kinematics.cpp 269-269. -/
def attrsDistanceConstraint : List PyAttr :=
  [.rw "distance_max"] ++ attrsPrioritized

/-- The attributes of `HumanoidParameters`, expose-parameters.cpp 21-52. -/
def attrsHumanoidParameters : List PyAttr :=
  [.rw "single_support_duration", .rw "single_support_timesteps", .rw "double_support_ratio",
    .rw "startend_double_support_ratio", .rw "planned_timesteps", .rw "zmp_margin", .rw "walk_foot_height",
    .rw "walk_foot_rise_ratio", .rw "walk_com_height", .rw "walk_trunk_pitch", .rw "feet_spacing", .rw "foot_width",
    .rw "foot_length", .rw "foot_zmp_target_x", .rw "foot_zmp_target_y", .rw "zmp_reference_weight", .rw "walk_max_dx_forward",
    .rw "walk_max_dx_backward", .rw "walk_max_dy", .rw "walk_max_dtheta", .rw "walk_dtheta_spacing", .rw "op_space_polygon",
    .rw "dcm_offset_polygon"]

/-- The attributes of `SparsityInterval`, expose-problem.cpp 37-38. -/
def attrsSparsityInterval : List PyAttr :=
  [.rw "start", .rw "end"]

/-- The attributes of `Sparsity`, expose-problem.cpp 41-41. -/
def attrsSparsity : List PyAttr :=
  [.ro "intervals"]

/-- The attributes of `ProblemConstraint`, expose-problem.cpp 62-76. -/
def attrsProblemConstraint : List PyAttr :=
  [.ro "expression", .ro "priority", .ro "weight", .ro "is_active"]

/-- The attributes of `Integrator`, expose-problem.cpp 90-94. -/
def attrsIntegrator : List PyAttr :=
  [.rw "t_start", .ro "M", .ro "A", .ro "B", .ro "final_transition_matrix"]

/-- The attributes of `Problem`, expose-problem.cpp 116-126. -/
def attrsProblem : List PyAttr :=
  [.ro "x", .rw "n_variables", .rw "n_inequalities", .rw "n_equalities", .rw "free_variables", .rw "determined_variables",
    .rw "slack_variables", .rw "use_sparsity", .rw "rewrite_equalities", .rw "regularization", .ro "slacks"]

/-- The attributes of `Variable`, expose-problem.cpp 130-132. -/
def attrsVariable : List PyAttr :=
  [.ro "k_start", .ro "k_end", .ro "value"]

/-- The attributes of `Expression`, expose-problem.cpp 136-137. -/
def attrsExpression : List PyAttr :=
  [.rw "A", .rw "b"]

/-- The attributes of `RobotWrapper`, expose-robot-wrapper.cpp 27-30. -/
def attrsRobotWrapper : List PyAttr :=
  [.rw "state", .ro "model", .ro "collision_model", .ro "visual_model"]

/-- The attributes of `RobotWrapper_State`, expose-robot-wrapper.cpp 152-154. -/
def attrsRobotWrapper_State : List PyAttr :=
  [.rw "q", .rw "qd", .rw "qdd"]

/-- The attributes of `Collision`, expose-robot-wrapper.cpp 157-162. -/
def attrsCollision : List PyAttr :=
  [.ro "objA", .ro "objB", .ro "bodyA", .ro "bodyB", .ro "parentA", .ro "parentB"]

/-- The attributes of `Distance`, expose-robot-wrapper.cpp 167-173. -/
def attrsDistance : List PyAttr :=
  [.ro "objA", .ro "objB", .ro "parentA", .ro "parentB", .rw "pointA", .rw "pointB", .ro "min_distance"]

/-- The attributes of `HumanoidRobot`, and of its base, expose-robot-wrapper.cpp 218-219. -/
def attrsHumanoidRobot : List PyAttr :=
  [.rw "support_is_both", .ro "support_side"] ++ attrsRobotWrapper

/-- The attributes of `AxisesMask`, expose-tools.cpp 56-57. -/
def attrsAxisesMask : List PyAttr :=
  [.rw "R_local_world", .rw "R_custom_world"]

/-- The attributes of `Polynom`, expose-tools.cpp 87-87. -/
def attrsPolynom : List PyAttr :=
  [.rw "coefficients"]

/-- The attributes of `Segment`, expose-tools.cpp 90-91. -/
def attrsSegment : List PyAttr :=
  [.rw "start", ⟨"end", "end", some "start"⟩]

/-- The attributes of `WPGTrajectoryPart`, expose-walk-pattern-generator.cpp 27-30. -/
def attrsWPGTrajectoryPart : List PyAttr :=
  [.rw "t_start", .rw "t_end", .rw "support"]

/-- The attributes of `WPGTrajectory`, expose-walk-pattern-generator.cpp 34-40. -/
def attrsWPGTrajectory : List PyAttr :=
  [.ro "t_start", .ro "t_end", .ro "com_target_z", .ro "trunk_pitch", .ro "trunk_roll", .ro "parts", .ro "replan_success"]

/-- The attributes of `WalkPatternGenerator`, expose-walk-pattern-generator.cpp 76-79. -/
def attrsWalkPatternGenerator : List PyAttr :=
  [.rw "soft", .rw "zmp_in_support_weight", .rw "stop_end_support_weight"]

/-- The attributes of `WalkTasks`, expose-walk-pattern-generator.cpp 135-150. -/
def attrsWalkTasks : List PyAttr :=
  [.ro "solver", .rw "scaled", .ro "left_foot_task", .ro "right_foot_task", .rw "trunk_mode", .rw "com_x", .rw "com_y",
    .ro "trunk_orientation_task", .ro "com_task", .ro "trunk_task"]

/-- The attributes of `LIPM`, expose-walk-pattern-generator.cpp 176-183. -/
def attrsLIPM : List PyAttr :=
  [.rw "dt", .rw "timesteps", .rw "t_start", .rw "t_end", .rw "x_var", .rw "y_var", .rw "x", .rw "y"]

/-- The attributes of `DummyWalk`, expose-walk-pattern-generator.cpp 190-206. -/
def attrsDummyWalk : List PyAttr :=
  [.ro "robot", .ro "parameters", .ro "solver", .rw "support_left", .rw "lift_spline", .ro "dx", .ro "dy", .ro "dtheta",
    .rw "T_world_left", .rw "T_world_right", .rw "T_world_next"]

/-- A Python class, with its attributes and those of its bases. expose-tools.cpp 89. -/
structure PyClass where
  name : String
  attrs : List PyAttr
  deriving DecidableEq

/-- The classes that have attributes, in all the files of /repo/bindings (expose-dynamics.cpp 26-247, expose-footsteps.cpp 24-59,
expose-kinematics.cpp 23-269, expose-parameters.cpp 21-53, expose-problem.cpp 37-137, expose-robot-wrapper.cpp 27-219, expose-tools.cpp 56-91,
expose-walk-pattern-generator.cpp 27-207). -/
def pyClasses : List PyClass :=
  [⟨"DynamicsSolverResult", attrsDynamicsSolverResult⟩, ⟨"DynamicsSolver", attrsDynamicsSolver⟩,
   ⟨"Prioritized", attrsPrioritized⟩, ⟨"DynamicsTask", attrsDynamicsTask⟩, ⟨"DynamicsPositionTask", attrsDynamicsPositionTask⟩,
   ⟨"DynamicsCoMTask", attrsDynamicsCoMTask⟩, ⟨"DynamicsRelativePositionTask", attrsDynamicsRelativePositionTask⟩,
   ⟨"DynamicsRelativeOrientationTask", attrsDynamicsRelativeOrientationTask⟩,
   ⟨"DynamicsOrientationTask", attrsDynamicsOrientationTask⟩,
   ⟨"AvoidSelfCollisionsDynamicsConstraint", attrsAvoidSelfCollisionsDynamicsConstraint⟩, ⟨"Footstep", attrsFootstep⟩,
   ⟨"Support", attrsSupport⟩, ⟨"KinematicsSolver", attrsKinematicsSolver⟩, ⟨"Task", attrsTask⟩,
   ⟨"PositionTask", attrsPositionTask⟩, ⟨"RelativePositionTask", attrsRelativePositionTask⟩, ⟨"CoMTask", attrsCoMTask⟩,
   ⟨"OrientationTask", attrsOrientationTask⟩, ⟨"RelativeOrientationTask", attrsRelativeOrientationTask⟩,
   ⟨"AxisAlignTask", attrsAxisAlignTask⟩, ⟨"WheelTask", attrsWheelTask⟩, ⟨"DistanceTask", attrsDistanceTask⟩,
   ⟨"CentroidalMomentumTask", attrsCentroidalMomentumTask⟩, ⟨"ManipulabilityTask", attrsManipulabilityTask⟩,
   ⟨"AvoidSelfCollisionsKinematicsConstraint", attrsAvoidSelfCollisionsKinematicsConstraint⟩,
   ⟨"CoMPolygonConstraint", attrsCoMPolygonConstraint⟩, ⟨"JointSpaceHalfSpacesConstraint", attrsJointSpaceHalfSpacesConstraint⟩,
   ⟨"ConeConstraint", attrsConeConstraint⟩, ⟨"YawConstraint", attrsYawConstraint⟩,
   ⟨"DistanceConstraint", attrsDistanceConstraint⟩, ⟨"HumanoidParameters", attrsHumanoidParameters⟩,
   ⟨"SparsityInterval", attrsSparsityInterval⟩, ⟨"Sparsity", attrsSparsity⟩, ⟨"ProblemConstraint", attrsProblemConstraint⟩,
   ⟨"Integrator", attrsIntegrator⟩, ⟨"Problem", attrsProblem⟩, ⟨"Variable", attrsVariable⟩, ⟨"Expression", attrsExpression⟩,
   ⟨"RobotWrapper", attrsRobotWrapper⟩, ⟨"RobotWrapper_State", attrsRobotWrapper_State⟩, ⟨"Collision", attrsCollision⟩,
   ⟨"Distance", attrsDistance⟩, ⟨"HumanoidRobot", attrsHumanoidRobot⟩, ⟨"AxisesMask", attrsAxisesMask⟩,
   ⟨"Polynom", attrsPolynom⟩, ⟨"Segment", attrsSegment⟩, ⟨"WPGTrajectoryPart", attrsWPGTrajectoryPart⟩,
   ⟨"WPGTrajectory", attrsWPGTrajectory⟩, ⟨"WalkPatternGenerator", attrsWalkPatternGenerator⟩, ⟨"WalkTasks", attrsWalkTasks⟩,
   ⟨"LIPM", attrsLIPM⟩, ⟨"DummyWalk", attrsDummyWalk⟩]

/-- An object of Python: the members of the C++ object and the dictionary of the instance. expose-tools.cpp 89. -/
structure PyObj (V : Type) where
  member : String → V
  dict : String → Option V

variable {V : Type}

/-- The attribute of a name. expose-tools.cpp 56-91. -/
def PyClass.find (c : PyClass) (a : String) : Option PyAttr := c.attrs.find? fun p => p.name = a

/-- Reading an attribute; none is an `AttributeError`. expose-tools.cpp 56-91. -/
def PyObj.get (c : PyClass) (o : PyObj V) (a : String) : Option V :=
  match c.find a with
  | some p => some (o.member p.getter)
  | none => o.dict a

/-- Assigning an attribute: the object, and whether an `AttributeError` is raised. A name that is not an attribute of the class is stored in the
dictionary of the instance. expose-tools.cpp 56-91. -/
def PyObj.set (c : PyClass) (o : PyObj V) (a : String) (v : V) : PyObj V × Bool :=
  match c.find a with
  | some p =>
    match p.setter with
    | some m => ({ o with member := fun k => if k = m then v else o.member k }, false)
    | none => (o, true)
  | none => ({ o with dict := fun k => if k = a then some v else o.dict k }, false)

/-- Assignments, one after the other; the errors are caught. expose-tools.cpp 56-91. -/
def PyObj.run (c : PyClass) (o : PyObj V) (l : List (String × V)) : PyObj V := l.foldl (fun o p => (o.set c p.1 p.2).1) o

end Verif.Bindings
