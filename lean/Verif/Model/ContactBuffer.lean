/-!
# Contact buffers: contact_buffer.go, space.go:422-446, 713-719

Buffers live on a heap: one function per field, addresses are numbers, `fresh` is the next unused address. The
contents of the buffers are not modelled; instead every reservation that is kept is recorded in `log`.
Stamps are unsigned 64-bit in the code and natural numbers here: a wrap-around needs 2^64 steps.
-/
namespace Cm
namespace ContactBuf

/-- space.go:14 -/
def bufferSize : Nat := 1024
/-- space.go:13 -/
def maxPer : Nat := 2

/-- `count` contacts from `start` on of buffer `buf`, handed out in the step with number `stamp`. -/
structure Res where
  buf : Nat
  start : Nat
  count : Nat
  stamp : Nat
deriving DecidableEq

/-- contact_buffer.go:3-11 for all buffers, and the fields of the space used here: space.go:62, 72, 76. -/
structure State where
  next : Nat → Nat
  stampOf : Nat → Nat
  num : Nat → Nat
  head : Option Nat
  stamp : Nat
  persistence : Nat
  fresh : Nat
  log : List Res

/-- Assignment of a field of one buffer. -/
def upd (f : Nat → Nat) (a v : Nat) : Nat → Nat := fun x => if x = a then v else f x

/-- `InitHeader`: contact_buffer.go:19-29. -/
def initHeader (s : State) (c : Nat) (stamp : Nat) (splice : Option Nat) : State :=
  let s1 := { s with stampOf := upd s.stampOf c stamp }
  let s2 := match splice with
    | some b => { s1 with next := upd s1.next c (s1.next b) }
    | none => { s1 with next := upd s1.next c c }
  { s2 with num := upd s2.num c 0 }

/-- `PushFreshContactBuffer`: space.go:422-437, with `NewContactBuffer` contact_buffer.go:13-17. -/
def pushFresh (s : State) : State :=
  match s.head with
  | none => { initHeader { s with fresh := s.fresh + 1 } s.fresh s.stamp none with head := some s.fresh }
  | some head =>
    if s.stamp - s.stampOf (s.next head) > s.persistence then
      let tail := s.next head
      { initHeader s tail s.stamp (some tail) with head := some tail }
    else
      let s1 := initHeader { s with fresh := s.fresh + 1 } s.fresh s.stamp (some head)
      { s1 with next := upd s1.next head s.fresh, head := some s.fresh }

/-- `ContactBufferGetArray`: space.go:439-446; the result is the buffer and the start of the slice of `maxPer`
contacts, `none` is the nil dereference before the first step. -/
def getArray (s : State) : Option (State × Nat × Nat) :=
  match s.head with
  | none => none
  | some h =>
    let s1 := if s.num h + maxPer > bufferSize then pushFresh s else s
    match s1.head with
    | none => none
    | some h1 => some (s1, h1, s1.num h1)

/-- `PushContacts`: space.go:713-715. -/
def pushContacts (s : State) (count : Nat) : State :=
  match s.head with
  | none => s
  | some h => { s with num := upd s.num h (s.num h + count) }

/-- `PopContacts`: space.go:717-719. -/
def popContacts (s : State) (count : Nat) : State :=
  match s.head with
  | none => s
  | some h => { s with num := upd s.num h (s.num h - count) }

/-- The beginning of a step: space.go:545, 569. -/
def beginStep (s : State) : State := pushFresh { s with stamp := s.stamp + 1 }

/-- One collision (space.go:1078, 1086, 1114-1118) or one contact restored on waking (space.go:190-192): an array is
fetched, `count` contacts of it are used, and they are given back if the collision was not accepted. -/
def reserve (s : State) (count : Nat) (keep : Bool) : Option State :=
  match getArray s with
  | none => none
  | some (s1, b, start) =>
    let s2 := pushContacts s1 count
    if keep then some { s2 with log := ⟨b, start, count, s.stamp⟩ :: s2.log } else some (popContacts s2 count)

/-- Steps and reservations. -/
inductive Op where
  | step
  | reserve (count : Nat) (keep : Bool)

/-- A history; `none` if it panics. -/
def run (s : State) : List Op → Option State
  | [] => some s
  | .step :: ops => run (beginStep s) ops
  | .reserve c k :: ops => match reserve s c k with
    | none => none
    | some s' => run s' ops

/-- `NewSpace`: space.go:98, 103; no buffer. -/
def init (persistence : Nat) : State :=
  { next := fun _ => 0, stampOf := fun _ => 0, num := fun _ => 0, head := none, stamp := 0, persistence := persistence, fresh := 0, log := [] }

end ContactBuf
end Cm
