/-
Model of the attributes of the contacts seen from Python.
  /repo/bindings/expose-dynamics.cpp 42-89
  /repo/src/placo/dynamics/contacts.h 15-251
-/
import Mathlib.Tactic.TypeStar

namespace Verif.Bindings

/-- The classes of contacts, contacts.h 15, 90, 118, 163, 206, 223, 234. -/
inductive ContactCls where
  | contact | point | sixD | line | wrench | puppet | task
  deriving DecidableEq

/-- A reference to `c` can be given where a reference to `d` is expected: all the classes derive from `Contact`, and not from each other.
contacts.h 90, 118, 163, 206, 223, 234; `bases<Contact>` in expose-dynamics.cpp 50-89. -/
def ContactCls.converts (c d : ContactCls) : Bool := c == d || d == .contact

/-- The names used as attributes. expose-dynamics.cpp 42-85. -/
inductive ContactAttr where
  | active | mu | weightForces | weightTangentials | weightMoments | wrench
  | positionTask | orientationTask | unilateral | length | width | zmp | rWorldSurface | frameIndex | wExt
  deriving DecidableEq

/-- How a name is exposed: `def_readwrite` (or `add_property` with a setter), `def_readonly` (or `add_property` without one), `def`.
The class is the one of the object that the accessor takes. expose-dynamics.cpp 42-89. -/
inductive ContactEntry where
  | readwrite (self : ContactCls)
  | readonly (self : ContactCls)
  | method (self : ContactCls)

/-- The names exposed by each class itself, expose-dynamics.cpp 42-89. The accessors of `LineContact.R_world_surface`, lines 79-81, take a
`PointContact&`. -/
def ContactCls.own : ContactCls → ContactAttr → Option ContactEntry
  | .contact, .active => some (.readwrite .contact)
  | .contact, .mu => some (.readwrite .contact)
  | .contact, .weightForces => some (.readwrite .contact)
  | .contact, .weightTangentials => some (.readwrite .contact)
  | .contact, .weightMoments => some (.readwrite .contact)
  | .contact, .wrench => some (.readonly .contact)
  | .point, .positionTask => some (.method .point)
  | .point, .unilateral => some (.readwrite .point)
  | .point, .rWorldSurface => some (.readwrite .point)
  | .sixD, .positionTask => some (.method .sixD)
  | .sixD, .orientationTask => some (.method .sixD)
  | .sixD, .unilateral => some (.readwrite .sixD)
  | .sixD, .length => some (.readwrite .sixD)
  | .sixD, .width => some (.readwrite .sixD)
  | .sixD, .zmp => some (.method .sixD)
  | .line, .positionTask => some (.method .line)
  | .line, .orientationTask => some (.method .line)
  | .line, .unilateral => some (.readwrite .line)
  | .line, .length => some (.readwrite .line)
  | .line, .zmp => some (.method .line)
  | .line, .rWorldSurface => some (.readwrite .point)
  | .wrench, .frameIndex => some (.readonly .wrench)
  | .wrench, .wExt => some (.readwrite .wrench)
  | _, _ => none

/-- The attribute of the Python class, or of its base. expose-dynamics.cpp 50, 58, 70, 83, 87, 89 (`bases<Contact>`). -/
def ContactCls.lookup (c : ContactCls) (a : ContactAttr) : Option ContactEntry := c.own a <|> ContactCls.contact.own a

/-- The exceptions of Python and Boost.Python, raised by the accessors of expose-dynamics.cpp 42-89. -/
inductive PyErr where
  | attributeError | argumentError
  deriving DecidableEq

/-- A contact held by Python: its C++ members and the dictionary of the Python instance. The values have the type that the member expects
(a value of another type is refused by Boost.Python, not modelled). contacts.h 15-251. -/
structure PyContact (V : Type*) where
  cls : ContactCls
  member : ContactAttr → V
  dict : ContactAttr → Option V

/-- What an attribute evaluates to: the value of a member, or a method (`position_task`, `orientation_task`, `zmp`). expose-dynamics.cpp 42-89. -/
inductive PyValue (V : Type*) where
  | value (v : V)
  | bound
  deriving DecidableEq

variable {V : Type*}

/-- `contact.a`: properties of the class, then the dictionary of the instance, then methods. expose-dynamics.cpp 42-89. -/
def PyContact.get (o : PyContact V) (a : ContactAttr) : Except PyErr (PyValue V) :=
  match o.cls.lookup a with
  | some (.readwrite s) => if o.cls.converts s then .ok (.value (o.member a)) else .error .argumentError
  | some (.readonly s) => if o.cls.converts s then .ok (.value (o.member a)) else .error .argumentError
  | some (.method _) => match o.dict a with
    | some v => .ok (.value v)
    | none => .ok .bound
  | none => match o.dict a with
    | some v => .ok (.value v)
    | none => .error .attributeError

/-- `contact.a = v`: the setter of the property if there is one, an error if the property has none, the dictionary of the instance otherwise.
expose-dynamics.cpp 42-89. -/
def PyContact.set (o : PyContact V) (a : ContactAttr) (v : V) : PyContact V × Option PyErr :=
  match o.cls.lookup a with
  | some (.readwrite s) =>
    if o.cls.converts s then ({ o with member := fun b => if b = a then v else o.member b }, none) else (o, some .argumentError)
  | some (.readonly _) => (o, some .attributeError)
  | _ => ({ o with dict := fun b => if b = a then some v else o.dict b }, none)

/-- A sequence of assignments by a Python program, whose exceptions are caught. expose-dynamics.cpp 42-89. -/
def PyContact.run (o : PyContact V) (l : List (ContactAttr × V)) : PyContact V := l.foldl (fun o p => (o.set p.1 p.2).1) o

end Verif.Bindings
