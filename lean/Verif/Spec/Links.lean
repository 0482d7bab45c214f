/-! # Specification of things attached to two owners

A link is a thing with its two owners. The state is the list of links present, newest first. -/
namespace Cm
namespace Spec
variable {N B : Type} [DecidableEq N] [DecidableEq B]

/-- Attach a thing to two owners, or take a thing away. -/
inductive LinkOp (N B : Type) where
  | attach (n : N) (a b : B)
  | detach (n : N)

/-- The links present after an operation. -/
def linkStep (links : List (N × B × B)) : LinkOp N B → List (N × B × B)
  | .attach n a b => (n, a, b) :: links
  | .detach n => links.filter (·.1 ≠ n)

/-- The links present after a history. -/
def links (ops : List (LinkOp N B)) : List (N × B × B) := ops.foldl linkStep []

/-- Something is attached only while it is not attached already, to two different owners. -/
def LinkAllowed (links : List (N × B × B)) : LinkOp N B → Prop
  | .attach n a b => a ≠ b ∧ ∀ l ∈ links, l.1 ≠ n
  | .detach _ => True

/-- Every operation of the history is allowed when it happens. -/
def LinkHistory : List (N × B × B) → List (LinkOp N B) → Prop
  | _, [] => True
  | ls, op :: ops => LinkAllowed ls op ∧ LinkHistory (linkStep ls op) ops

/-- Only things that are attached are taken away. -/
def RemovesPresent : List (N × B × B) → List (LinkOp N B) → Prop
  | _, [] => True
  | ls, op :: ops => (∀ n, op = .detach n → ∃ l ∈ ls, l.1 = n) ∧ RemovesPresent (linkStep ls op) ops

/-- What an owner owns, newest first. -/
def owned (b : B) (links : List (N × B × B)) : List N := (links.filter fun l => l.2.1 = b ∨ l.2.2 = b).map (·.1)

end Spec
end Cm
