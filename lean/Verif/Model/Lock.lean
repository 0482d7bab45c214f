import Mathlib.Tactic.Common

/-!
# Locking a space, deferred wake-ups and post-step callbacks

Modelled: `Space.Activate` as far as the lock goes (space.go:162-170), `Lock`, `Unlock` (space.go:648-692),
`PostStepCallback`, `AddPostStepCallback` (space.go:990-1025), and how the operations of a space nest them: everything a
user callback does is a list of `Act`s. What else the operations do is in `Model/Space.lean`.

The counter is an integer. Callbacks have numbers, `prog f` is what callback `f` does when called; keys are numbers, no
key is nil. `log` records, the latest first, what was asked for and what was done; the code keeps no such record.
-/
namespace Cm
namespace Lk

/-- What happens with callbacks and waking. -/
inductive LEv where
  /-- `Space.Activate` is called for the body. -/
  | asked (b : Nat)
  /-- The body is woken, at this lock depth. -/
  | woke (b : Nat) (depth : Int)
  /-- `AddPostStepCallback` with its result; `during`: called while post-step callbacks are being run. -/
  | added (f : Nat) (key : Option Nat) (ok during : Bool)
  /-- A post-step callback is called, at this lock depth. -/
  | start (f : Nat) (depth : Int)
  /-- It returns. -/
  | finish (f : Nat)
deriving DecidableEq, Repr

/-- The fields of `Space` concerned: space.go:68-85, and the record. A callback is its key and the function, nil once it
was taken (space.go:678). -/
structure LSt where
  locked : Int
  roused : List Nat
  skip : Bool
  posts : List (Option Nat × Option Nat)
  log : List LEv
deriving DecidableEq, Repr

/-- What an operation or callback does that matters here. `block run body` is an operation that locks the space, calls
callbacks which do `body`, and calls `Unlock(run)`: with `run` true EachBody, EachShape, …, SegmentQuery, ShapeQuery,
the second half of BBQuery, FilterArbiters in RemoveShape (space.go:400-408, 826-930, 944-975, 1056-1061) and the second
half of Step (space.go:578-645), with `run` false the first half of Step (space.go:561-573). -/
inductive Act where
  | wake (b : Nat)
  | post (f : Nat) (key : Option Nat)
  | block (run : Bool) (body : List Act)

/-- `Step`: space.go:540-646; the callbacks of the collision phase do `a`, those of the second half do `b`. -/
def stepActs (a b : List Act) : List Act := [.block false a, .block true b]

/-- `BBQuery`: space.go:951-958; the callbacks for the static shapes do `a`, those for the dynamic ones `b`. -/
def bbQueryActs (a b : List Act) : List Act := a ++ [.block true b]

/-- `Space.Activate`: space.go:162-170. -/
def ask (s : LSt) (b : Nat) : LSt :=
  if s.locked ≠ 0 then { s with roused := if b ∈ s.roused then s.roused else s.roused ++ [b], log := .asked b :: s.log }
  else { s with log := .woke b s.locked :: .asked b :: s.log }

/-- `AddPostStepCallback`: space.go:1010-1025 with `PostStepCallback` space.go:990-998. -/
def addPost (s : LSt) (f : Nat) (key : Option Nat) : LSt :=
  if key = none ∨ ∀ e ∈ s.posts, e.1 ≠ key then
    { s with posts := s.posts ++ [(key, some f)], log := .added f key true s.skip :: s.log }
  else { s with log := .added f key false s.skip :: s.log }

/-- The loop space.go:668-672. -/
def release (s : LSt) : LSt :=
  { s with roused := [], log := (s.roused.map fun b => LEv.woke b s.locked).reverse ++ s.log }

/-- The loop space.go:677-687, over the places given; `ex` runs the body of a callback. -/
def runPosts (prog : Nat → List Act) (ex : LSt → List Act → Option LSt) : List Nat → LSt → Option LSt
  | [], s => some s
  | i :: l, s =>
    match s.posts[i]? with
    | none => none
    | some (k, none) => runPosts prog ex l { s with posts := s.posts.set i (k, none) }
    | some (k, some f) =>
      match ex { s with posts := s.posts.set i (k, none), log := .start f s.locked :: s.log } (prog f) with
      | none => none
      | some s1 => runPosts prog ex l { s1 with log := .finish f :: s1.log }

/-- `Unlock`: space.go:657-692. -/
def unlock (prog : Nat → List Act) (ex : LSt → List Act → Option LSt) (s : LSt) (run : Bool) : Option LSt :=
  let s1 := { s with locked := s.locked - 1 }
  if s1.locked ≠ 0 then some s1
  else
    let s2 := release s1
    if run && !s2.skip then
      match runPosts prog ex (List.range s2.posts.length) { s2 with skip := true } with
      | none => none
      | some s3 => some { s3 with posts := [], skip := false }
    else some s2

/-- A list of actions. The fuel is the depth to which callbacks may nest and the number of actions; `none` is running
out of it or a crash. -/
def exec (prog : Nat → List Act) : Nat → LSt → List Act → Option LSt
  | 0, _, _ => none
  | _ + 1, s, [] => some s
  | n + 1, s, .wake b :: l => exec prog n (ask s b) l
  | n + 1, s, .post f k :: l => exec prog n (addPost s f k) l
  | n + 1, s, .block run body :: l =>
    match exec prog n { s with locked := s.locked + 1 } body with
    | none => none
    | some s1 =>
      match unlock prog (exec prog n) s1 run with
      | none => none
      | some s2 => exec prog n s2 l

end Lk
end Cm
