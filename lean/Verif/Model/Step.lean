import Verif.Model.Solver
/-! # Steps of the solver

The numeric part of `Space.Step` over many steps. Which collisions there are in a step, and with what contacts, is an input of the step; so are the
bodies that are awake. -/
namespace Cm
variable {K : Type} [Zero K] [One K] [Add K] [Sub K] [Mul K] [Div K] [Neg K] [NatCast K] [LinearOrder K]

/-- The fields of `Space` the solver reads: space.go:17-59; `inf` is `infinity`. -/
structure Params (K : Type) where
  inf : K
  slop : K
  cbias : K
  damping : K
  gravity : V2 K
  iterations : Nat

/-- What a step is given: its length, the bodies in `DynamicBodies`, and the collisions found. -/
structure StepIn (K : Type) where
  dt : K
  dyn : List Nat
  arbs : List (Link (Arbiter K))

/-- space.go:563-565, default position functions. -/
def SolverState.positions (M : Mth K) (dyn : List Nat) (dt : K) (s : SolverState K) : SolverState K :=
  { s with bodies := fun k => if k ∈ dyn then (s.bodies k).updatePosition M dt else s.bodies k }

/-- space.go:540-631: positions, then the collisions of this step, then the solver; `dt = 0` returns at once. -/
def SolverState.step (M : Mth K) (par : Params K) (prevDT : K) (inp : StepIn K) (s : SolverState K) : SolverState K :=
  if inp.dt = 0 then s
  else
    SolverState.solve M par.inf par.slop par.cbias par.damping par.gravity inp.dyn prevDT inp.dt par.iterations
      { s.positions M inp.dyn inp.dt with arbs := inp.arbs }

/-- Steps one after the other; the length of the previous step is kept (space.go:547-548). -/
def SolverState.steps (M : Mth K) (par : Params K) : List (StepIn K) → K → SolverState K → SolverState K
  | [], _, s => s
  | i :: is, prevDT, s => SolverState.steps M par is (if i.dt = 0 then prevDT else i.dt) (s.step M par prevDT i)

end Cm
