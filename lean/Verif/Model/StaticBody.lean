/-!
# The designated static body

`NewSpace` gives a space its static body; `SetStaticBody` is the only function that assigns it.
-/

namespace Cm
namespace StaticBody

/-- space.go:35 and `Body.Space` of the bodies (body.go:30): true if it is this space. -/
structure St where
  static : Option Nat
  inSpace : Nat → Bool

/-- `NewSpace` with the static body `b`, whose `Space` is left nil: space.go:88-130. -/
def new (b : Nat) : St := ⟨some b, fun _ => false⟩

/-- `SetStaticBody`: space.go:152-160. The second component: it panicked. -/
def set (s : St) (b : Nat) : St × Bool := match s.static with
  | some o => ({ s with inSpace := fun c => if c = o then false else s.inSpace c }, true)
  | none => (⟨some b, fun c => if c = b then true else s.inSpace c⟩, false)

/-- Several calls, the panics recovered. -/
def setAll (s : St) : List Nat → St × List Bool
  | [] => (s, [])
  | b :: l => ((setAll (set s b).1 l).1, (set s b).2 :: (setAll (set s b).1 l).2)

end StaticBody
end Cm
