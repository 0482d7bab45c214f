import Verif.Model.HashSet
/-!
# Model of the collision handler registry and of callback dispatch

space.go:721-802, arbiter.go:232-320, 356-400, 427-435, and the calls of the callbacks in space.go:642, 1099-1106,
hashset_arbiter.go:20-21, 43-44.

A handler is a record with an identity `ptr` (its address). Callback functions are not modelled by their code; an
execution of a callback is given by the sequence of `CallWildcard...` calls it makes, which is arbitrary. A callback
executed for a wildcard handler makes no such calls (the documentation offers them to pair handlers).
-/
namespace Cm.Handlers
open Cm

/-- `CollisionType` is a `uintptr`: everything.go:63. -/
abbrev CType := BitVec 64

/-- arbiter.go:10 -/
def wildcard : CType := BitVec.allOnes 64

/-- everything.go:67-86. `userData` stands for `any`. -/
structure Handler where
  typeA : CType
  typeB : CType
  ptr : Nat
  userData : Nat
deriving DecidableEq, Repr

/-- collision.go:355 -/
def hashCoef : BitVec 64 := 3344921057

/-- collision.go:357-359 -/
def hashPair (a b : BitVec 64) : BitVec 64 := (a * hashCoef) ^^^ (b * hashCoef)

/-- The equality test given to the set of handlers: space.go:111-119. -/
def handlerEq (a b : Handler) : Bool :=
  (a.typeA == b.typeA && a.typeB == b.typeB) || (a.typeB == b.typeA && a.typeA == b.typeB)

/-- The hash always passed together with a handler: space.go:724, 740, 759, 780. -/
def handlerHash (h : Handler) : Nat := (hashPair h.typeA h.typeB).toNat

/-- The handler part of `Space`. -/
structure Reg where
  set : HashSet Handler
  usesWildcards : Bool
  dflt : Handler
deriving Repr

/-- `CollisionHandlerDoNothing`: arbiter.go:356-364. -/
def doNothing : Handler := ⟨wildcard, wildcard, 0, 0⟩

/-- `CollisionHandlerDefault`: arbiter.go:366-374. -/
def dfltHandler : Handler := ⟨wildcard, wildcard, 1, 0⟩

/-- space.go:111-121 -/
def newReg : Reg := ⟨HashSet.new, false, doNothing⟩

/-- space.go:722-729. `none` is an index panic (shown not to happen). -/
def lookup (r : Reg) (a b : CType) (d : Handler) : Option Handler := do
  let e ← r.set.find handlerEq (handlerHash ⟨a, b, 0, 0⟩) ⟨a, b, 0, 0⟩
  return e.getD d

/-- space.go:739-766 (both variants; `h` is the new record, the result is the stored one). -/
def addHandler (r : Reg) (h : Handler) : Option (Reg × Handler) := do
  let (s, e) ← r.set.insert handlerEq (handlerHash h) h h
  return ({ r with set := s }, e)

/-- space.go:777-802; `ptr` and `userData` of the new record are given. -/
def addWildcard (r : Reg) (a : CType) (ptr userData : Nat) : Option (Reg × Handler) :=
  let r := if r.usesWildcards then r else { r with usesWildcards := true, dflt := dfltHandler }
  addHandler r ⟨a, wildcard, ptr, userData⟩

/-- A registration made by the user. -/
inductive Registration where
  | pair (a b : CType) (ptr userData : Nat)
  | wild (a : CType) (ptr userData : Nat)

/-- One registration: space.go:739-795. -/
def register (r : Reg) : Registration → Option (Reg × Handler)
  | .pair a b p u => addHandler r ⟨a, b, p, u⟩
  | .wild a p u => addWildcard r a p u

/-- All registrations in order, with the handlers returned. -/
def registerAll (r : Reg) : List Registration → Option (Reg × List Handler)
  | [] => some (r, [])
  | x :: xs => do
    let (r, h) ← register r x
    let (r, hs) ← registerAll r xs
    return (r, h :: hs)

/-- The part of `Arbiter` about handlers: arbiter.go:16-31. Shapes are numbers. -/
structure Arb where
  shapeA : Nat
  shapeB : Nat
  handler : Option Handler
  handlerA : Option Handler
  handlerB : Option Handler
  swapped : Bool
deriving Repr

/-- The handler part of `Arbiter.Update`: arbiter.go:192-195, 232-250. `ty` is `shape.CollisionType`. The comparison
`handler != space.defaultHandler` is a comparison of addresses. -/
def update (r : Reg) (ty : Nat → CType) (arb : Arb) (a b : Nat) : Option Arb := do
  let typeA := ty a
  let typeB := ty b
  let handler ← lookup r typeA typeB r.dflt
  let swapped := typeA != handler.typeA && handler.typeA != wildcard
  let arb := { arb with shapeA := a, shapeB := b, handler := some handler, swapped := swapped }
  if handler.ptr != r.dflt.ptr || r.usesWildcards then
    if swapped then
      let hA ← lookup r typeB wildcard doNothing
      let hB ← lookup r typeA wildcard doNothing
      return { arb with handlerA := some hA, handlerB := some hB }
    else
      let hA ← lookup r typeA wildcard doNothing
      let hB ← lookup r typeB wildcard doNothing
      return { arb with handlerA := some hA, handlerB := some hB }
  else return arb

/-- arbiter.go:429-435 -/
def Arb.shapes (arb : Arb) : Nat × Nat := if arb.swapped then (arb.shapeB, arb.shapeA) else (arb.shapeA, arb.shapeB)

/-- The four callbacks. -/
inductive Kind where
  | begin | preSolve | postSolve | separate
deriving DecidableEq, Repr

/-- The `userData any` argument received by a callback: the user's data or a handler's address. -/
inductive Data where
  | user (n : Nat)
  | handler (ptr : Nat)
deriving DecidableEq, Repr

/-- Who ran. -/
inductive Role where
  | main | wildA | wildB
deriving DecidableEq, Repr

/-- An execution of one callback as seen by the user: what ran, with which data, and what `Shapes()` returned. -/
structure Entry where
  role : Role
  kind : Kind
  handler : Handler
  data : Data
  shapes : Nat × Nat
deriving Repr

/-- `CallWildcard{Begin,PreSolve,PostSolve,Separate}A`: arbiter.go:269-272, 284-287, 298-301, 310-313. A nil handler
is a panic. -/
def callWildA (k : Kind) (arb : Arb) : Option (Entry × Arb) := do
  let h ← arb.handlerA
  return (⟨.wildA, k, h, .user h.userData, arb.shapes⟩, arb)

/-- `CallWildcard{Begin,PreSolve,PostSolve,Separate}B`: arbiter.go:275-281, 290-296, 303-308, 315-320. -/
def callWildB (k : Kind) (arb : Arb) : Option (Entry × Arb) := do
  let h ← arb.handlerB
  let arb := { arb with swapped := !arb.swapped }
  let e : Entry := ⟨.wildB, k, h, .user h.userData, arb.shapes⟩
  let arb := { arb with swapped := !arb.swapped }
  return (e, arb)

/-- A sequence of wildcard calls made by the running callback; `true` is B. Which calls are made (for
example `A && B` in `DefaultBegin`, arbiter.go:384-400) is up to the callback. -/
def callWilds (k : Kind) (arb : Arb) : List Bool → Option (List Entry × Arb)
  | [] => some ([], arb)
  | c :: cs => do
    let (e, arb) ← if c then callWildB k arb else callWildA k arb
    let (es, arb) ← callWilds k arb cs
    return (e :: es, arb)

/-- The data passed by the space to the pair handler's callback. `BeginFunc`, `PreSolveFunc` (space.go:1099, 1106) and
`SeparateFunc` (hashset_arbiter.go:20-21, 43-44) get `handler.UserData`; `PostSolveFunc` gets the handler itself
(space.go:642). -/
def mainData (k : Kind) (h : Handler) : Data := match k with
  | .postSolve => .handler h.ptr
  | _ => .user h.userData

/-- The space runs one callback of an arbiter; the callback makes the wildcard calls `cs`. -/
def dispatch (k : Kind) (arb : Arb) (cs : List Bool) : Option (List Entry × Arb) := do
  let h ← arb.handler
  let e : Entry := ⟨.main, k, h, mainData k h, arb.shapes⟩
  let (es, arb) ← callWilds k arb cs
  return (e :: es, arb)

end Cm.Handlers
