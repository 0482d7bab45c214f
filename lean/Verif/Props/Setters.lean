import Verif.Props.Space
import Verif.Model.Setters

/-! # C107: changing a shape, a joint or a body wakes the bodies concerned -/

set_option linter.unusedSectionVars false
set_option linter.unusedSimpArgs false
set_option linter.unusedVariables false

namespace Cm
open Sp Spec

variable {K : Type} [Zero K] [LT K] [DecidableRel (α := K) (· < ·)] [Add K] [DecidableEq K]

/-- Exactly the bodies asleep in a group with one of the bodies wake, with their groups; who stays asleep stays in the same group. -/
def Spec.Woken (s s' : St K) (who : List Nat) : Prop :=
  (∀ c, asleep s' c ↔ asleep s c ∧ ∀ b ∈ who, ¬ sameGroup s b c) ∧ (∀ c, asleep s' c → (s'.bd c).root = (s.bd c).root)

/-- **C107.** Every setter of a body wakes its group, at any moment. -/
theorem C107_body {kind : Nat → Kind} {ops : List (Op K)} {s : St K} (h : ReachedBy kind ops s) (b : Nat) :
    ∃ s', setBodyField s b = some s' ∧ ReachedBy kind (ops ++ [.wake b]) s' ∧ Woken s s' [b] ∧ ¬ asleep s' b := by
  obtain ⟨s', e, h1, h2, -⟩ := C24_activate h b
  refine ⟨s', e, h.more trivial e, ⟨fun c => by simpa using h1 c, h2⟩, fun hb => ?_⟩
  have := (h1 b).1 hb
  exact this.2 ⟨this.1, rfl⟩

/-- **C107.** Every setter of a shape that is not about its geometry wakes the group of its body. -/
theorem C107_shape_partial {kind : Nat → Kind} {ops : List (Op K)} {s : St K} (h : ReachedBy kind ops s) (x : Nat) :
    ∃ s', setShapeField s x = some s' ∧ ReachedBy kind (ops ++ [.wake (s.sh x).body]) s' ∧ Woken s s' [(s.sh x).body] ∧ ¬ asleep s' (s.sh x).body :=
  C107_body h _

/-- **C107.** So does `SetSensor`, which then changes this shape and nothing else. -/
theorem C107_sensor {kind : Nat → Kind} {ops : List (Op K)} {s : St K} (h : ReachedBy kind ops s) (x : Nat) (v : Bool) :
    ∃ s', setSensor s x v = some s' ∧ Woken s s' [(s.sh x).body] ∧ ¬ asleep s' (s.sh x).body ∧ (s'.sh x).sensor = v ∧
      ∀ y, y ≠ x → ∃ s1, activate s (s.sh x).body = some s1 ∧ s'.sh y = s1.sh y := by
  obtain ⟨s', e, -, w, hn⟩ := C107_body h (s.sh x).body
  have e' : activate s (s.sh x).body = some s' := e
  refine ⟨s'.setS x fun h => { h with sensor := v }, by rw [setSensor, e']; rfl, w, hn, by simp [St.setS], fun y hy => ⟨s', e', by simp [St.setS, hy]⟩⟩

/-- **C107.** Every setter of a joint wakes the groups of both its bodies. -/
theorem C107_joint {kind : Nat → Kind} {ops : List (Op K)} {s : St K} (h : ReachedBy kind ops s) (c : Nat) :
    ∃ s', setJointField s c = some s' ∧ ReachedBy kind (ops ++ [.wake (s.cn c).a] ++ [.wake (s.cn c).b]) s' ∧ Woken s s' [(s.cn c).a, (s.cn c).b] ∧
      ¬ asleep s' (s.cn c).a ∧ ¬ asleep s' (s.cn c).b := by
  obtain ⟨s1, e1, r1, ⟨w1, g1⟩, n1⟩ := C107_body h (s.cn c).a
  obtain ⟨s2, e2, r2, ⟨w2, g2⟩, n2⟩ := C107_body r1 (s.cn c).b
  have key : ∀ d, asleep s2 d ↔ asleep s d ∧ ∀ b ∈ [(s.cn c).a, (s.cn c).b], ¬ sameGroup s b d := by
    intro d
    rw [w2, w1]
    simp only [List.mem_singleton, forall_eq, List.mem_cons, List.not_mem_nil, or_false, forall_eq_or_imp]
    constructor
    · rintro ⟨⟨h1, h2⟩, h3⟩
      refine ⟨h1, h2, fun hg => ?_⟩
      -- the second body is asleep in the group of `d`, which is not the group of the first
      have ha : asleep s1 (s.cn c).b := by
        rw [w1]
        refine ⟨hg.1, ?_⟩
        simp only [List.mem_singleton, forall_eq]
        rintro ⟨k1, k2⟩
        exact h2 ⟨k1, by rw [hg.2, k2]⟩
      have hd : asleep s1 d := by rw [w1]; exact ⟨h1, by simpa using h2⟩
      exact h3 ⟨ha, by rw [g1 _ hd, g1 _ ha, hg.2]⟩
    · rintro ⟨h1, h2, h3⟩
      refine ⟨⟨h1, h2⟩, ?_⟩
      rintro ⟨k1, k2⟩
      have hd : asleep s1 d := by rw [w1]; exact ⟨h1, by simpa using h2⟩
      have hb := (w1 _).1 k1
      rw [g1 _ hd, g1 _ k1] at k2
      exact h3 ⟨hb.1, k2⟩
  refine ⟨s2, ?_, r2, ⟨key, fun d hd => ?_⟩, fun ha => ?_, n2⟩
  · show (activate s (s.cn c).a).bind _ = _
    rw [show activate s (s.cn c).a = some s1 from e1]
    exact e2
  · rw [g2 d hd, g1 d ((w2 d).1 hd).1]
  · exact n1 ((w2 _).1 ha).1

/-- Three groups asleep: changing the joint between bodies 1 and 2 wakes these and no others. -/
example : ReachedBy demoKind demoSleep demoEnd ∧ ((demoEnd.cn 0).a, (demoEnd.cn 0).b) = (1, 2) ∧ demoEnd.sleeping = [1, 3, 4] ∧
    (setJointField demoEnd 0).map (·.sleeping) = some [3, 4] := ⟨demo_reached, by decide +kernel, by decide +kernel, by decide +kernel⟩

/-- **C107, full statement**: changing the geometry of a shape wakes its body. It does not: who is asleep stays asleep, as what it rests on shrinks or moves. -/
theorem C107_geometry : ∃ s' x, ReachedBy demoKind demoSleep demoEnd ∧ setGeometry demoEnd x = some s' ∧ asleep demoEnd (demoEnd.sh x).body ∧
    asleep s' (demoEnd.sh x).body := by
  refine ⟨demoEnd, 1, demo_reached, rfl, ?_, ?_⟩ <;> (show _ ≠ _; decide +kernel)

/-- **C107, full statement**: changing a shape wakes the bodies that rest on it. It does not if the shape belongs to a static body: `Activate` does nothing then. -/
theorem C107_static {s : St K} (x : Nat) (hk : (s.bd (s.sh x).body).kind ≠ .dynamic) : setShapeField s x = some s := by
  unfold setShapeField activate
  rw [if_pos hk]

/-- Body 1 sleeps in contact with shape 0 of the static body; after a change of the shape it still does. -/
theorem C107_resting : ∃ s', ReachedBy demoKind demoSleep demoEnd ∧ setShapeField demoEnd 0 = some s' ∧
    ((s'.ar 0).sa, (s'.ar 0).sb) = (1, 0) ∧ 0 ∈ (s'.bd 1).arbs ∧ 0 ∈ (s'.bd 0).arbs ∧ asleep s' 1 := by
  refine ⟨demoEnd, demo_reached, C107_static 0 (by decide +kernel), by decide +kernel, by decide +kernel, by decide +kernel, ?_⟩
  show _ ≠ _
  decide +kernel

end Cm
