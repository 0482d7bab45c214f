import Verif.Props.WorldIndex
import Verif.Proofs.Nudge
import Verif.Spec.Float
import Verif.Props.HashSet
import Verif.Props.BB
import Verif.Props.BBTree
import Verif.Props.Handlers
import Verif.Props.Body
import Verif.Props.Contact
import Verif.Props.Joint
import Verif.Props.JointMomentum
import Verif.Props.Reported
import Verif.Props.ContactSet
import Verif.Props.PairHeap
import Verif.Props.JointLists
import Verif.Props.ContactBuffer
import Verif.Props.Space
import Verif.Props.SpaceCalls
import Verif.Props.SpaceFaults
import Verif.Props.Lock
import Verif.Props.SpaceMisc
import Verif.Props.SpaceHash
import Verif.Props.ShapeBox
import Verif.Props.ShapePoint
import Verif.Props.ShapePoly
import Verif.Props.ShapeRay
import Verif.Props.ShapeRaySeg
import Verif.Props.ShapeRayPoly
import Verif.Props.ShapeMass
import Verif.Props.Gjk
import Verif.Props.Collide
import Verif.Model.Polyline
import Verif.Props.Polyline
import Verif.Props.PolylineSimplify
import Verif.Model.March
import Verif.Props.March
import Verif.Props.MarchClosed
import Verif.Props.MarchSide
import Verif.Model.Hull
import Verif.Props.HullArray
import Verif.Props.Hull
import Verif.Props.Energy
import Verif.Props.Correction
import Verif.Props.BodyMass
import Verif.Model.JointNew
import Verif.Props.JointNew
import Verif.Model.Narrow
import Verif.Props.Narrow
import Verif.Props.Reverse
import Verif.Model.Step
import Verif.Props.Frame
import Verif.Props.CentreOfMass
import Verif.Model.SpaceHashRay
import Verif.Props.SpaceHashRay
import Verif.Props.HashSetHeap
import Verif.Props.ShapeMade
import Verif.Props.ShapeMasses
import Verif.Model.TreeHeap
import Verif.Props.TreeHeap
import Verif.Model.Detect
import Verif.Props.Detect
import Verif.Props.Units
import Verif.Props.ContactEdges
import Verif.Props.ContactEnds
import Verif.Props.Epa
import Verif.Props.DetectEdges
import Verif.Props.Area
import Verif.Props.Inertia
import Verif.Model.SpaceHashHeap
import Verif.Props.SpaceHashHeap
import Verif.Props.SupportCount
import Verif.Props.GjkEnds
import Verif.Model.Setters
import Verif.Props.Setters
import Verif.Model.Draw
import Verif.Props.Draw
import Verif.Props.FrameDetect
import Verif.Props.TreeAxes
import Verif.Model.World
import Verif.Props.World
import Verif.Props.WorldShift
import Verif.Props.WorldFound
import Verif.Props.WorldPhase
import Verif.Props.Groups
import Verif.Props.WorldContacts
import Verif.Model.WorldQuery
import Verif.Props.WorldQuery
import Verif.Props.Rest
import Verif.Props.WorldRest
import Verif.Props.WorldFloor
import Verif.Props.Impact
import Verif.Props.Flight
import Verif.Props.Sunk
import Verif.Props.Bounce
import Verif.Props.Tunnel
import Verif.Props.Rolling
import Verif.Props.Driven
import Verif.Props.PolylineSharp
import Verif.Props.MadeMore
import Verif.Props.Descent
import Verif.Props.Converge
import Verif.Props.Rounding
import Verif.Props.Force
import Verif.Model.Idle
import Verif.Props.Idle
import Verif.Model.Inventory
import Verif.Props.Inventory
import Verif.Props.Hinge
import Verif.Props.Rod
import Verif.Props.RotarySpring
import Verif.Props.LinearSpring
import Verif.Props.Ratchet
import Verif.Props.Strut
import Verif.Props.ToothLost
import Verif.Props.Groove
import Verif.Props.HashRounded
import Verif.Props.HashRayRounded
import Verif.Props.HashSpread
import Verif.Props.Kaczmarz
import Verif.Props.JointsMeet
import Verif.Props.JointsStrong
import Verif.Props.AllMeet
import Verif.Props.MixedDescent
import Verif.Props.AllSettle
import Verif.Props.AllExist
import Verif.Props.Heaps
import Verif.Props.JointTrees
import Verif.Props.Swarm
import Verif.Props.SwarmFloor
