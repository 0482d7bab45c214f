import Verif.Props.Space
import Verif.Model.StaticBody

/-!
# C51, C66: a step of zero time, and the static body
-/

set_option linter.unusedSectionVars false
set_option linter.unusedVariables false

namespace Cm
open Sp Spec

variable {K : Type} [Zero K] [LT K] [DecidableRel (α := K) (· < ·)] [Add K] [DecidableEq K]

/-- The call is a step of zero time. -/
def Spec.zeroStep : Sp.Op K → Bool
  | .step inp => decide (inp.dt = 0)
  | _ => false

/-- `Step(0)` changes nothing and calls nothing back (`evs` records every callback), whatever touches. -/
theorem C51_step (s : St K) (inp : StepIn K) (h : inp.dt = 0) : (Sp.Op.step inp).run s = some s := by
  simp only [Sp.Op.run, stepPublic, if_pos h]

/-- A whole history ends the same if the steps of zero time are left out of it. -/
theorem C51_history : ∀ (ops : List (Sp.Op K)) (s : St K), runAll s ops = runAll s (ops.filter fun o => !zeroStep o)
  | [], s => rfl
  | o :: l, s => by
    cases hz : zeroStep o with
    | true =>
      have hr : o.run s = some s := by
        cases o with
        | step inp => exact C51_step s inp (by simpa [zeroStep] using hz)
        | _ => simp [zeroStep] at hz
      rw [runAll, hr, List.filter_cons, if_neg (by simp [hz])]
      exact C51_history l s
    | false =>
      rw [List.filter_cons, if_pos (by simp [hz]), runAll, runAll]
      cases o.run s with
      | none => rfl
      | some s1 => exact C51_history l s1

/-- The same step with a hit calls Begin when its time is not zero. -/
example : (runAll demoNew (demoAdd 0 ++ demoAdd 1 ++ [demoStep 0 [(1, 0)]])).map (·.evs) = some [] ∧
    (runAll demoNew (demoAdd 0 ++ demoAdd 1 ++ [demoStep (1/4) [(1, 0)]])).map (·.evs.length) = some 3 := by
  constructor <;> decide +kernel

example : runAll demoNew (demoRest ++ [demoStep 0 demoHits, demoStep (1/4) demoHits]) = runAll demoNew (demoRest ++ [demoStep (1/4) demoHits]) := by
  rw [C51_history, C51_history (demoRest ++ [demoStep (1/4) demoHits])]; rfl

/-- **C66** is false: however often it is tried on a space made by `NewSpace`, with any bodies, `SetStaticBody` panics and
the static body stays. -/
theorem C66_always_panics (b : Nat) (l : List Nat) :
    (StaticBody.setAll (StaticBody.new b) l).1.static = some b ∧ ∀ p ∈ (StaticBody.setAll (StaticBody.new b) l).2, p = true := by
  suffices ∀ (l : List Nat) (s : StaticBody.St), s.static = some b → (StaticBody.setAll s l).1.static = some b ∧ ∀ p ∈ (StaticBody.setAll s l).2, p = true from
    this l _ rfl
  intro l
  induction l with
  | nil => intro s h; exact ⟨h, by simp [StaticBody.setAll]⟩
  | cons c l ih =>
    intro s h
    have h1 : (StaticBody.set s c).1.static = some b ∧ (StaticBody.set s c).2 = true := by simp [StaticBody.set, h]
    obtain ⟨i1, i2⟩ := ih _ h1.1
    exact ⟨i1, by intro p hp; rcases List.mem_cons.1 hp with rfl | hp; exacts [h1.2, i2 p hp]⟩

/-- Full statement: after `SetStaticBody(c)` the static body is `c`. It holds only for a space without a static body, which
`NewSpace` never makes. -/
theorem C66_partial (s : StaticBody.St) (h : s.static = none) (c : Nat) :
    (StaticBody.set s c).1.static = some c ∧ (StaticBody.set s c).1.inSpace c = true ∧ (StaticBody.set s c).2 = false := by
  simp [StaticBody.set, h]

example : (StaticBody.setAll (StaticBody.new 0) [1, 2]).2 = [true, true] := by decide
example : (StaticBody.setAll ⟨none, fun _ => false⟩ [1, 2]).2 = [false, true] := by decide

end Cm
