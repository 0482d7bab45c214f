import Verif.Model.Body
/-! # Momentum and energy of rigid bodies, stated without the solver -/
namespace Cm.Spec
variable {K : Type} [Zero K] [One K] [Add K] [Sub K] [Mul K] [Div K] [Neg K] [NatCast K] [LinearOrder K]

/-- The body has finite non-zero mass, and the stored inverse is the inverse. -/
def FiniteMass (b : Body K) : Prop := b.m * b.mInv = 1
/-- The same for the moment of inertia. -/
def FiniteMoment (b : Body K) : Prop := b.i * b.iInv = 1
/-- Infinite mass and moment, as static and kinematic bodies have. -/
def Immovable (b : Body K) : Prop := b.mInv = 0 ∧ b.iInv = 0

/-- Linear momentum. -/
def linMom (b : Body K) : V2 K := ⟨b.m * b.v.x, b.m * b.v.y⟩
/-- Momentum of the position correction velocity. -/
def biasMom (b : Body K) : V2 K := ⟨b.m * b.vBias.x, b.m * b.vBias.y⟩
/-- Angular momentum about the origin. -/
def angMom (b : Body K) : K := b.m * (b.p.x * b.v.y - b.p.y * b.v.x) + b.i * b.w
/-- Spin angular momentum. -/
def spinMom (b : Body K) : K := b.i * b.w
/-- The bodies differ at most in the velocities. -/
def SameBut (b b' : Body K) : Prop := b' = { b with v := b'.v, w := b'.w, vBias := b'.vBias, wBias := b'.wBias }

/-- The velocity of the material point of `b` at offset `r` from its centre of gravity. -/
def pointVel (b : Body K) (r : V2 K) : V2 K := ⟨b.v.x - b.w * r.y, b.v.y + b.w * r.x⟩

/-- An exchange of impulses between two bodies: nothing but velocities change, linear momentum (and that
of the correction velocities) is conserved, and immovable bodies are untouched. -/
structure Exchange (a b a' b' : Body K) : Prop where
  sameA : SameBut a a'
  sameB : SameBut b b'
  lin : FiniteMass a → FiniteMass b →
    (linMom a').x + (linMom b').x = (linMom a).x + (linMom b).x ∧
    (linMom a').y + (linMom b').y = (linMom a).y + (linMom b).y
  bias : FiniteMass a → FiniteMass b →
    (biasMom a').x + (biasMom b').x = (biasMom a).x + (biasMom b).x ∧
    (biasMom a').y + (biasMom b').y = (biasMom a).y + (biasMom b).y
  fixA : Immovable a → a' = a
  fixB : Immovable b → b' = b

/-- What every exchange of impulses does in any arithmetic: nothing but velocities change, and immovable bodies are untouched. -/
structure Nudge (a b a' b' : Body K) : Prop where
  sameA : SameBut a a'
  sameB : SameBut b b'
  fixA : Immovable a → a' = a
  fixB : Immovable b → b' = b

theorem Exchange.nudge {a b a' b' : Body K} (h : Exchange a b a' b') : Nudge a b a' b' := ⟨h.sameA, h.sameB, h.fixA, h.fixB⟩

/-- Twice the kinetic energy. -/
def energy2 {F : Type} [Field F] (b : Body F) : F := b.m * (b.v.x ^ 2 + b.v.y ^ 2) + b.i * b.w ^ 2

end Cm.Spec
