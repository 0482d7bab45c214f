import Verif.Model.Step
import Verif.Spec.Motion
import Verif.Spec.Rounded
/-! # The solver touches velocities only, and no immovable body, in any arithmetic -/
set_option linter.unusedSectionVars false
set_option linter.unusedSimpArgs false

namespace Cm
open Spec
variable {K : Type} [Zero K] [One K] [Add K] [Sub K] [Mul K] [Div K] [Neg K] [NatCast K] [LinearOrder K]

namespace Spec
theorem SameBut.refl (a : Body K) : SameBut a a := rfl
theorem SameBut.trans {a b c : Body K} (h : SameBut a b) (h' : SameBut b c) : SameBut a c := by
  unfold SameBut at *
  rw [h'] 
  rw [h]
theorem SameBut.masses {a b : Body K} (h : SameBut a b) :
    b.m = a.m ∧ b.mInv = a.mInv ∧ b.i = a.i ∧ b.iInv = a.iInv ∧ b.p = a.p ∧ b.angle = a.angle ∧ b.tr = a.tr ∧
      b.cog = a.cog ∧ b.idle = a.idle ∧ b.force = a.force ∧ b.torque = a.torque := by
  unfold SameBut at h
  rw [h]
  simp
theorem SameBut.finiteMass {a b : Body K} (h : SameBut a b) : FiniteMass a ↔ FiniteMass b := by
  unfold FiniteMass; rw [h.masses.1, h.masses.2.1]
theorem SameBut.finiteMoment {a b : Body K} (h : SameBut a b) : FiniteMoment a ↔ FiniteMoment b := by
  unfold FiniteMoment; rw [h.masses.2.2.1, h.masses.2.2.2.1]
theorem SameBut.immovable {a b : Body K} (h : SameBut a b) : Immovable a ↔ Immovable b := by
  unfold Immovable; rw [h.masses.2.1, h.masses.2.2.2.1]

theorem Nudge.refl (a b : Body K) : Nudge a b a b := ⟨.refl a, .refl b, fun _ => rfl, fun _ => rfl⟩

theorem Nudge.trans {a b a' b' a'' b'' : Body K} (h : Nudge a b a' b') (h' : Nudge a' b' a'' b'') : Nudge a b a'' b'' := by
  refine ⟨h.sameA.trans h'.sameA, h.sameB.trans h'.sameB, ?_, ?_⟩
  · intro ha
    rw [h'.fixA (h.sameA.immovable.1 ha), h.fixA ha]
  · intro hb
    rw [h'.fixB (h.sameB.immovable.1 hb), h.fixB hb]
end Spec

variable [Spec.Rounded K]

theorem applyImpulses_nudge (a b : Body K) (r1 r2 j : V2 K) : Nudge a b (applyImpulses a b r1 r2 j).1 (applyImpulses a b r1 r2 j).2 := by
  refine ⟨rfl, rfl, ?_, ?_⟩
  · intro h
    obtain ⟨m, mi, i, ii, _⟩ := a
    obtain ⟨rfl, rfl⟩ : mi = 0 ∧ ii = 0 := h
    simp only [applyImpulses, Rounded.mul_zero, Rounded.zero_mul, Rounded.add_zero]
  · intro h
    obtain ⟨m, mi, i, ii, _⟩ := b
    obtain ⟨rfl, rfl⟩ : mi = 0 ∧ ii = 0 := h
    simp only [applyImpulses, Rounded.mul_zero, Rounded.zero_mul, Rounded.add_zero]

theorem applyBiasImpulses_nudge (a b : Body K) (r1 r2 j : V2 K) : Nudge a b (applyBiasImpulses a b r1 r2 j).1 (applyBiasImpulses a b r1 r2 j).2 := by
  refine ⟨rfl, rfl, ?_, ?_⟩
  · intro h
    obtain ⟨m, mi, i, ii, _⟩ := a
    obtain ⟨rfl, rfl⟩ : mi = 0 ∧ ii = 0 := h
    simp only [applyBiasImpulses, Rounded.mul_zero, Rounded.zero_mul, Rounded.add_zero]
  · intro h
    obtain ⟨m, mi, i, ii, _⟩ := b
    obtain ⟨rfl, rfl⟩ : mi = 0 ∧ ii = 0 := h
    simp only [applyBiasImpulses, Rounded.mul_zero, Rounded.zero_mul, Rounded.add_zero]

theorem spin_nudge (a b : Body K) (j c : K) : Nudge a b (spin a b j c).1 (spin a b j c).2 := by
  refine ⟨rfl, rfl, ?_, ?_⟩
  · intro h
    obtain ⟨m, mi, i, ii, _⟩ := a
    obtain ⟨rfl, rfl⟩ : mi = 0 ∧ ii = 0 := h
    simp only [spin, Rounded.mul_zero, Rounded.zero_mul, Rounded.sub_zero]
  · intro h
    obtain ⟨m, mi, i, ii, _⟩ := b
    obtain ⟨rfl, rfl⟩ : mi = 0 ∧ ii = 0 := h
    simp only [spin, Rounded.mul_zero, Rounded.zero_mul, Rounded.add_zero]

theorem contactStep_nudge (n sv : V2 K) (u : K) (a b : Body K) (c : Contact K) :
    Nudge a b (Arbiter.contactStep n sv u a b c).1 (Arbiter.contactStep n sv u a b c).2.1 := by
  unfold Arbiter.contactStep
  exact (applyBiasImpulses_nudge _ _ _ _ _).trans (applyImpulses_nudge _ _ _ _ _)

theorem impulseLoop_nudge (n sv : V2 K) (u : K) (cs : List (Contact K)) : ∀ a b : Body K,
    Nudge a b (Arbiter.impulseLoop n sv u cs a b).1 (Arbiter.impulseLoop n sv u cs a b).2.1 := by
  induction cs with
  | nil => intro a b; exact Nudge.refl a b
  | cons c cs ih => intro a b; exact (contactStep_nudge n sv u a b c).trans (ih _ _)

theorem cachedLoop_nudge (n : V2 K) (t : K) (cs : List (Contact K)) : ∀ a b : Body K,
    Nudge a b (Arbiter.cachedLoop n t cs a b).1 (Arbiter.cachedLoop n t cs a b).2 := by
  induction cs with
  | nil => intro a b; exact Nudge.refl a b
  | cons c cs ih => intro a b; exact (applyImpulses_nudge _ _ _ _ _).trans (ih _ _)

namespace Spec
theorem arbNudge (x : Arbiter K) (a b : Body K) : Nudge a b (x.applyImpulse a b).1 (x.applyImpulse a b).2.1 := impulseLoop_nudge _ _ _ _ _ _

theorem arbCachedNudge (x : Arbiter K) (t : K) (a b : Body K) : Nudge a b (x.applyCachedImpulse a b t).1 (x.applyCachedImpulse a b t).2 := by
  unfold Arbiter.applyCachedImpulse
  split
  · exact Nudge.refl a b
  · exact cachedLoop_nudge _ _ _ _ _

theorem jointPreNudge (M : Mth K) (inf dt : K) (jt : Joint K) (a b : Body K) :
    Nudge a b (jt.preStep M inf a b dt).1 (jt.preStep M inf a b dt).2.1 := by
  cases jt with
  | spring j => exact applyImpulses_nudge _ _ _ _ _
  | rotarySpring j =>
    refine ⟨rfl, rfl, fun h => ?_, fun h => ?_⟩
    · obtain ⟨m, mi, i, ii, _⟩ := a
      obtain ⟨rfl, rfl⟩ : mi = 0 ∧ ii = 0 := h
      simp only [Joint.preStep, DampedRotarySpring.preStep, Rounded.mul_zero, Rounded.sub_zero]
    · obtain ⟨m, mi, i, ii, _⟩ := b
      obtain ⟨rfl, rfl⟩ : mi = 0 ∧ ii = 0 := h
      simp only [Joint.preStep, DampedRotarySpring.preStep, Rounded.mul_zero, Rounded.add_zero]
  | _ => exact Nudge.refl a b

theorem jointCachedNudge (jt : Joint K) (t : K) (a b : Body K) :
    Nudge a b (jt.applyCached a b t).1 (jt.applyCached a b t).2 := by
  cases jt with
  | pin j => exact applyImpulses_nudge _ _ _ _ _
  | slide j => exact applyImpulses_nudge _ _ _ _ _
  | pivot j => exact applyImpulses_nudge _ _ _ _ _
  | groove j => exact applyImpulses_nudge _ _ _ _ _
  | gear j => exact spin_nudge _ _ _ _
  | ratchet j => exact spin_nudge _ _ _ _
  | rotaryLimit j => exact spin_nudge _ _ _ _
  | motor j => exact spin_nudge _ _ _ _
  | spring j => exact Nudge.refl a b
  | rotarySpring j => exact Nudge.refl a b

theorem jointNudge (M : Mth K) (dt : K) (jt : Joint K) (a b : Body K) :
    Nudge a b (jt.applyImpulse M a b dt).1 (jt.applyImpulse M a b dt).2.1 := by
  cases jt with
  | pin j => exact applyImpulses_nudge _ _ _ _ _
  | slide j =>
    simp only [Joint.applyImpulse, SlideJoint.applyImpulse]
    split
    · exact Nudge.refl a b
    · exact applyImpulses_nudge _ _ _ _ _
  | pivot j => exact applyImpulses_nudge _ _ _ _ _
  | groove j => exact applyImpulses_nudge _ _ _ _ _
  | gear j => exact spin_nudge _ _ _ _
  | ratchet j =>
    simp only [Joint.applyImpulse, RatchetJoint.applyImpulse]
    split
    · exact Nudge.refl a b
    · exact spin_nudge _ _ _ _
  | rotaryLimit j =>
    simp only [Joint.applyImpulse, RotaryLimitJoint.applyImpulse]
    split
    · exact Nudge.refl a b
    · exact spin_nudge _ _ _ _
  | motor j => exact spin_nudge _ _ _ _
  | spring j => exact applyImpulses_nudge _ _ _ _ _
  | rotarySpring j =>
    refine ⟨rfl, rfl, fun h => ?_, fun h => ?_⟩
    · obtain ⟨m, mi, i, ii, _⟩ := a
      obtain ⟨rfl, rfl⟩ : mi = 0 ∧ ii = 0 := h
      simp only [Joint.applyImpulse, DampedRotarySpring.applyImpulse, Rounded.mul_zero, Rounded.add_zero]
    · obtain ⟨m, mi, i, ii, _⟩ := b
      obtain ⟨rfl, rfl⟩ : mi = 0 ∧ ii = 0 := h
      simp only [Joint.applyImpulse, DampedRotarySpring.applyImpulse, Rounded.mul_zero, Rounded.sub_zero]
end Spec

end Cm
