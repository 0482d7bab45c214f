import Verif.Props.JointLimit
/-! # C71, C72: the impulses reported are the impulses delivered -/
set_option linter.unusedSectionVars false
set_option linter.unusedSimpArgs false
set_option linter.unusedVariables false

namespace Cm
open Spec
variable {K : Type} [Field K] [LinearOrder K] [IsStrictOrderedRing K]

namespace Spec
/-- Change of linear momentum. -/
def momGain (b b' : Body K) : V2 K := ⟨(linMom b').x - (linMom b).x, (linMom b').y - (linMom b).y⟩
/-- Change of spin. -/
def spinGain (b b' : Body K) : K := spinMom b' - spinMom b

/-- Momentum given to the second body by a joint over one step with a steady time step: by its preparation at
`start`, by its warm start at `warm`, and by `n` iterations, the `k`-th of which finds the bodies as `bodies k`,
whatever other joints and contacts have done to them. -/
def jointGain (M : Mth K) (inf dt : K) (jt : Joint K) (start warm : Body K × Body K) (bodies : Nat → Body K × Body K) :
    Nat → V2 K
  | 0 =>
    let p := jt.preStep M inf start.1 start.2 dt
    (momGain start.2 p.2.1).add (momGain warm.2 (p.2.2.applyCached warm.1 warm.2 1).2)
  | n + 1 =>
    (jointGain M inf dt jt start warm bodies n).add
      (momGain (bodies n).2
        ((iterateJoint M dt (jt.preStep M inf start.1 start.2 dt).2.2 bodies n).applyImpulse M (bodies n).1 (bodies n).2 dt).2.1)

/-- The same for the spin of the second body. -/
def jointSpinGain (M : Mth K) (inf dt : K) (jt : Joint K) (start warm : Body K × Body K) (bodies : Nat → Body K × Body K) :
    Nat → K
  | 0 =>
    let p := jt.preStep M inf start.1 start.2 dt
    spinGain start.2 p.2.1 + spinGain warm.2 (p.2.2.applyCached warm.1 warm.2 1).2
  | n + 1 =>
    jointSpinGain M inf dt jt start warm bodies n +
      spinGain (bodies n).2
        ((iterateJoint M dt (jt.preStep M inf start.1 start.2 dt).2.2 bodies n).applyImpulse M (bodies n).1 (bodies n).2 dt).2.1

/-- Joints that act at anchors. -/
def Linear : Joint K → Prop
  | .pin _ | .slide _ | .pivot _ | .groove _ | .spring _ => True
  | _ => False
end Spec

/-- The accumulated impulse vector of a joint that acts at anchors. -/
def accVec : Joint K → V2 K
  | .pin j => j.n.scale j.jnAcc
  | .slide j => j.n.scale j.jnAcc
  | .pivot j => j.jAcc
  | .groove j => j.jAcc
  | .spring j => j.n.scale j.jAcc
  | _ => V2.zero

/-- The accumulated spin of an angular joint, on the second body. -/
def accSpin : Joint K → K
  | .gear j => j.jAcc
  | .ratchet j => j.jAcc
  | .rotaryLimit j => j.jAcc
  | .motor j => j.jAcc
  | .rotarySpring j => j.jAcc
  | _ => 0

theorem applyImpulses_gain (a b : Body K) (hb : FiniteMass b) (r1 r2 j : V2 K) :
    momGain b (applyImpulses a b r1 r2 j).2 = j := by
  unfold FiniteMass at hb
  refine V2.ext ?_ ?_ <;> simp only [momGain, linMom, applyImpulses]
  · linear_combination j.x * hb
  · linear_combination j.y * hb

theorem momGain_self (b : Body K) : momGain b b = V2.zero := by
  refine V2.ext ?_ ?_ <;> simp [momGain, V2.zero]

theorem spin_gain (a b : Body K) (hb : FiniteMoment b) (j c : K) : spinGain b (spin a b j c).2 = j := by
  unfold FiniteMoment at hb
  simp only [spinGain, spinMom, spin]
  linear_combination j * hb

theorem iter_gain (M : Mth K) (dt : K) (jt : Joint K) (a b : Body K) (hb : FiniteMass b) (hl : Linear jt) :
    momGain b (jt.applyImpulse M a b dt).2.1 = (accVec (jt.applyImpulse M a b dt).2.2).sub (accVec jt) ∧
    Linear (jt.applyImpulse M a b dt).2.2 := by
  cases jt with
  | pin j =>
    refine ⟨?_, trivial⟩
    simp only [Joint.applyImpulse, PinJoint.applyImpulse, accVec]
    rw [applyImpulses_gain _ _ hb]
    refine V2.ext ?_ ?_ <;> simp only [V2.scale, V2.sub] <;> ring
  | slide j =>
    refine ⟨?_, trivial⟩
    simp only [Joint.applyImpulse, SlideJoint.applyImpulse, accVec]
    split
    · rw [momGain_self]; refine V2.ext ?_ ?_ <;> simp [V2.sub, V2.zero]
    · simp only
      rw [applyImpulses_gain _ _ hb]
      refine V2.ext ?_ ?_ <;> simp only [V2.scale, V2.sub] <;> ring
  | pivot j =>
    refine ⟨?_, trivial⟩
    simp only [Joint.applyImpulse, PivotJoint.applyImpulse, accVec]
    rw [applyImpulses_gain _ _ hb]
  | groove j =>
    refine ⟨?_, trivial⟩
    simp only [Joint.applyImpulse, GrooveJoint.applyImpulse, accVec]
    rw [applyImpulses_gain _ _ hb]
  | spring j =>
    refine ⟨?_, trivial⟩
    simp only [Joint.applyImpulse, DampedSpring.applyImpulse, accVec]
    rw [applyImpulses_gain _ _ hb]
    refine V2.ext ?_ ?_ <;> simp only [V2.scale, V2.sub] <;> ring
  | _ => exact hl.elim

theorem start_gain (M : Mth K) (inf dt : K) (jt : Joint K) (s w : Body K × Body K) (hs : FiniteMass s.2) (hw : FiniteMass w.2)
    (hl : Linear jt) :
    let p := jt.preStep M inf s.1 s.2 dt
    (momGain s.2 p.2.1).add (momGain w.2 (p.2.2.applyCached w.1 w.2 1).2) = accVec p.2.2 ∧ Linear p.2.2 := by
  have z : ∀ v : V2 K, V2.zero.add v = v := fun v => by refine V2.ext ?_ ?_ <;> simp [V2.add, V2.zero]
  have z' : ∀ v : V2 K, v.add V2.zero = v := fun v => by refine V2.ext ?_ ?_ <;> simp [V2.add, V2.zero]
  have s1 : ∀ v : V2 K, v.scale 1 = v := fun v => by refine V2.ext ?_ ?_ <;> simp [V2.scale]
  cases jt with
  | pin j =>
    refine ⟨?_, trivial⟩
    simp only [Joint.preStep, Joint.applyCached, PinJoint.applyCached, accVec]
    rw [momGain_self, z, applyImpulses_gain _ _ hw, mul_one]
  | slide j =>
    refine ⟨?_, trivial⟩
    simp only [Joint.preStep, Joint.applyCached, SlideJoint.applyCached, accVec]
    rw [momGain_self, z, applyImpulses_gain _ _ hw, mul_one]
  | pivot j =>
    refine ⟨?_, trivial⟩
    simp only [Joint.preStep, Joint.applyCached, PivotJoint.applyCached, accVec]
    rw [momGain_self, z, applyImpulses_gain _ _ hw, s1]
  | groove j =>
    refine ⟨?_, trivial⟩
    simp only [Joint.preStep, Joint.applyCached, GrooveJoint.applyCached, accVec]
    rw [momGain_self, z, applyImpulses_gain _ _ hw, s1]
  | spring j =>
    refine ⟨?_, trivial⟩
    simp only [Joint.preStep, Joint.applyCached, DampedSpring.preStep, accVec]
    rw [momGain_self, z', applyImpulses_gain _ _ hs]
  | _ => exact hl.elim

theorem gain_acc (M : Mth K) (inf dt : K) (jt : Joint K) (s w : Body K × Body K) (bodies : Nat → Body K × Body K)
    (hs : FiniteMass s.2) (hw : FiniteMass w.2) (hb : ∀ k, FiniteMass (bodies k).2) (hl : Linear jt) (n : Nat) :
    jointGain M inf dt jt s w bodies n = accVec (iterateJoint M dt (jt.preStep M inf s.1 s.2 dt).2.2 bodies n) ∧
    Linear (iterateJoint M dt (jt.preStep M inf s.1 s.2 dt).2.2 bodies n) := by
  induction n with
  | zero => exact start_gain M inf dt jt s w hs hw hl
  | succ n ih =>
    have h := iter_gain M dt (iterateJoint M dt (jt.preStep M inf s.1 s.2 dt).2.2 bodies n) (bodies n).1 (bodies n).2 (hb n) ih.2
    refine ⟨?_, h.2⟩
    rw [jointGain, ih.1, h.1]
    refine V2.ext ?_ ?_ <;> simp [V2.add, V2.sub, iterateJoint]

/-- The direction of a rod-like joint is a unit vector, or its impulse is zero. -/
def unitOrIdle : Joint K → Prop
  | .pin j => j.n.x ^ 2 + j.n.y ^ 2 = 1
  | .slide j => j.n.x ^ 2 + j.n.y ^ 2 = 1 ∨ (j.n = V2.zero ∧ j.jnAcc = 0)
  | .spring j => j.n.x ^ 2 + j.n.y ^ 2 = 1
  | _ => True

theorem unitOrIdle_iter (M : Mth K) (dt : K) (jt : Joint K) (a b : Body K) (h : unitOrIdle jt) :
    unitOrIdle (jt.applyImpulse M a b dt).2.2 := by
  cases jt with
  | pin j => exact h
  | slide j =>
    rcases h with h | ⟨h1, h2⟩
    · left
      simp only [SlideJoint.applyImpulse]
      split <;> exact h
    · right
      simp only [SlideJoint.applyImpulse, if_pos h1]
      exact ⟨h1, h2⟩
  | spring j => exact h
  | _ => trivial

/-- The anchors of a rod-like joint are not in the same place. -/
def Spec.RodApart (jt : Joint K) (a b : Body K) : Prop :=
  match jt with
  | .pin j => gap a b j.anchorA j.anchorB ≠ V2.zero
  | .slide j => gap a b j.anchorA j.anchorB ≠ V2.zero
  | .spring j => gap a b j.anchorA j.anchorB ≠ V2.zero
  | _ => True

theorem unitOrIdle_pre {M : Mth K} (hM : M.Lawful) (inf dt : K) (jt : Joint K) (a b : Body K) (h : RodApart jt a b) :
    unitOrIdle (jt.preStep M inf a b dt).2.2 := by
  cases jt with
  | pin j =>
    have hg' : b.p.add ((anchorOffset b j.anchorB).sub (a.p.add (anchorOffset a j.anchorA)))
        = gap a b j.anchorA j.anchorB := by
      refine V2.ext ?_ ?_ <;> simp only [gap, V2.add, V2.sub] <;> ring
    have hgm : (gap a b j.anchorA j.anchorB).mag M ≠ 0 := fun e => h (mag_eq_zero hM _ e)
    simp only [unitOrIdle, Joint.preStep, PinJoint.preStep, hg', if_pos hgm]
    exact mag_scale_inv hM _ h
  | slide j =>
    have hn := mag_scale_inv hM _ h
    simp only [unitOrIdle, Joint.preStep, SlideJoint.preStep]
    split_ifs
    · left; exact hn
    · left; simp only [V2.neg, V2.unit]; simp only [gap] at hn; linear_combination hn
    · right; exact ⟨rfl, rfl⟩
  | spring j =>
    have hgm : (gap a b j.anchorA j.anchorB).mag M ≠ 0 := fun e => h (mag_eq_zero hM _ e)
    have hgm' : ((b.p.add (anchorOffset b j.anchorB)).sub (a.p.add (anchorOffset a j.anchorA))).mag M ≠ 0 := hgm
    simp only [unitOrIdle, Joint.preStep, DampedSpring.preStep, if_pos hgm']
    exact mag_scale_inv hM _ h
  | _ => trivial

/-- **C71** With a steady time step, the impulse that a joint acting at anchors reports after a step is the length
of the momentum it has given its second body in that step: the squares agree. The other body's share follows from
C38. -/
theorem C71_linear {M : Mth K} (hM : M.Lawful) (inf dt : K) (jt : Joint K) (s w : Body K × Body K)
    (bodies : Nat → Body K × Body K) (hs : FiniteMass s.2) (hw : FiniteMass w.2) (hb : ∀ k, FiniteMass (bodies k).2)
    (hl : Linear jt) (hap : RodApart jt s.1 s.2) (n : Nat) :
    let g := jointGain M inf dt jt s w bodies n
    (iterateJoint M dt (jt.preStep M inf s.1 s.2 dt).2.2 bodies n).getImpulse M ^ 2 = g.x ^ 2 + g.y ^ 2 := by
  intro g
  have hg := gain_acc M inf dt jt s w bodies hs hw hb hl n
  have hu : unitOrIdle (iterateJoint M dt (jt.preStep M inf s.1 s.2 dt).2.2 bodies n) := by
    clear hg g
    induction n with
    | zero => exact unitOrIdle_pre hM inf dt jt s.1 s.2 hap
    | succ n ih => exact unitOrIdle_iter M dt _ _ _ ih
  have hgg : g = _ := hg.1
  rw [hgg]
  generalize iterateJoint M dt (jt.preStep M inf s.1 s.2 dt).2.2 bodies n = q at *
  cases q with
  | pin j =>
    simp only [Joint.getImpulse, PinJoint.getImpulse, accVec, V2.scale, fabs_eq, sq_abs, unitOrIdle] at *
    linear_combination -j.jnAcc ^ 2 * hu
  | slide j =>
    simp only [Joint.getImpulse, SlideJoint.getImpulse, accVec, V2.scale, fabs_eq, sq_abs, unitOrIdle] at *
    rcases hu with hu | ⟨h1, h2⟩
    · linear_combination -j.jnAcc ^ 2 * hu
    · rw [h2]; ring
  | pivot j =>
    have := mag_sq hM j.jAcc
    simp only [Joint.getImpulse, PivotJoint.getImpulse, accVec, V2.lengthSq, V2.dot] at *
    linear_combination this
  | groove j =>
    have := mag_sq hM j.jAcc
    simp only [Joint.getImpulse, GrooveJoint.getImpulse, accVec, V2.lengthSq, V2.dot] at *
    linear_combination this
  | spring j =>
    simp only [Joint.getImpulse, accVec, V2.scale, unitOrIdle] at *
    linear_combination -j.jAcc ^ 2 * hu
  | _ => exact hg.2.elim

/-! ### Angular joints -/

/-- Angular joints other than the rotary spring. -/
def Spec.Rotor : Joint K → Prop
  | .gear _ | .ratchet _ | .rotaryLimit _ | .motor _ => True
  | _ => False

theorem iter_spin (M : Mth K) (dt : K) (jt : Joint K) (a b : Body K) (hb : FiniteMoment b) (hl : Rotor jt) :
    spinGain b (jt.applyImpulse M a b dt).2.1 = accSpin (jt.applyImpulse M a b dt).2.2 - accSpin jt ∧
    Rotor (jt.applyImpulse M a b dt).2.2 := by
  cases jt with
  | gear j =>
    refine ⟨?_, trivial⟩
    simp only [Joint.applyImpulse, GearJoint.applyImpulse, accSpin]
    rw [spin_gain _ _ hb]
  | motor j =>
    refine ⟨?_, trivial⟩
    simp only [Joint.applyImpulse, SimpleMotor.applyImpulse, accSpin]
    rw [spin_gain _ _ hb]
  | ratchet j =>
    refine ⟨?_, trivial⟩
    simp only [Joint.applyImpulse, RatchetJoint.applyImpulse, accSpin]
    split
    · simp [spinGain]
    · simp only
      rw [spin_gain _ _ hb]
  | rotaryLimit j =>
    refine ⟨?_, trivial⟩
    simp only [Joint.applyImpulse, RotaryLimitJoint.applyImpulse, accSpin]
    split
    · simp [spinGain]
    · simp only
      rw [spin_gain _ _ hb]
  | _ => exact hl.elim

/-- **C71** The same for gears, ratchets, rotary limits and motors: with a steady time step the reported impulse is
the size of the spin given to the second body. -/
theorem C71_angular_partial (M : Mth K) (inf dt : K) (jt : Joint K) (s w : Body K × Body K)
    (bodies : Nat → Body K × Body K) (hs : FiniteMoment s.2) (hw : FiniteMoment w.2) (hb : ∀ k, FiniteMoment (bodies k).2)
    (hl : Rotor jt) (n : Nat) :
    (iterateJoint M dt (jt.preStep M inf s.1 s.2 dt).2.2 bodies n).getImpulse M
      = |jointSpinGain M inf dt jt s w bodies n| := by
  have key : jointSpinGain M inf dt jt s w bodies n = accSpin (iterateJoint M dt (jt.preStep M inf s.1 s.2 dt).2.2 bodies n) ∧
      Rotor (iterateJoint M dt (jt.preStep M inf s.1 s.2 dt).2.2 bodies n) := by
    induction n with
    | zero =>
      cases jt with
      | gear j =>
        refine ⟨?_, trivial⟩
        simp only [jointSpinGain, iterateJoint, Joint.preStep, Joint.applyCached, GearJoint.applyCached, accSpin]
        rw [spin_gain _ _ hw]; simp [spinGain]
      | ratchet j =>
        refine ⟨?_, trivial⟩
        simp only [jointSpinGain, iterateJoint, Joint.preStep, Joint.applyCached, RatchetJoint.applyCached, accSpin]
        rw [spin_gain _ _ hw]; simp [spinGain]
      | rotaryLimit j =>
        refine ⟨?_, trivial⟩
        simp only [jointSpinGain, iterateJoint, Joint.preStep, Joint.applyCached, RotaryLimitJoint.applyCached, accSpin]
        rw [spin_gain _ _ hw]; simp [spinGain]
      | motor j =>
        refine ⟨?_, trivial⟩
        simp only [jointSpinGain, iterateJoint, Joint.preStep, Joint.applyCached, SimpleMotor.applyCached, accSpin]
        rw [spin_gain _ _ hw]; simp [spinGain]
      | _ => exact hl.elim
    | succ n ih =>
      have h := iter_spin M dt (iterateJoint M dt (jt.preStep M inf s.1 s.2 dt).2.2 bodies n) (bodies n).1 (bodies n).2 (hb n) ih.2
      refine ⟨?_, h.2⟩
      rw [jointSpinGain, ih.1, h.1]
      simp [iterateJoint]
  rw [key.1]
  generalize iterateJoint M dt (jt.preStep M inf s.1 s.2 dt).2.2 bodies n = q at *
  cases q with
  | gear j => rfl
  | ratchet j => rfl
  | rotaryLimit j => rfl
  | motor j => rfl
  | _ => exact key.2.elim

/-- A damped rotary spring reports something else: its damping is counted with the wrong sign. With no spring torque
and a relative turning rate of 2, the spin given to the second body is positive while the reported impulse is its
negative; with torque, the two parts are subtracted instead of added. -/
theorem C71_rotarySpring :
    let s : DampedRotarySpring ℚ := { damping := 1, torqueFn := DampedRotarySpring.defaultTorque 0 1, targetWrn := 0, wCoef := 0, iSum := 0, jAcc := 0 }
    let a : Body ℚ := { exBlock with angle := 1, w := 3 }
    let b : Body ℚ := exBall
    let g := jointSpinGain toyMth 1000 1 (.rotarySpring s) (a, b) (a, b) (fun _ => (a, b)) 1
    let r := (iterateJoint toyMth 1 ((Joint.rotarySpring s).preStep toyMth 1000 a b 1).2.2 (fun _ => (a, b)) 1).getImpulse toyMth
    g = 7/4 ∧ r = 1/4 := by
  refine ⟨?_, ?_⟩ <;> decide +kernel

/-! ## C72: arbiters -/

namespace Spec
/-- The momentum a collision gives its second body over one step with a steady time step: by warm starting at `warm`
and by `n` iterations, the `k`-th of which finds the bodies as `bodies k`. -/
def arbGain (arb : Arbiter K) (warm : Body K × Body K) (bodies : Nat → Body K × Body K) : Nat → V2 K
  | 0 => momGain warm.2 (arb.applyCachedImpulse warm.1 warm.2 1).2
  | n + 1 => (arbGain arb warm bodies n).add
      (momGain (bodies n).2 ((iterateArb arb bodies n).applyImpulse (bodies n).1 (bodies n).2).2.1)
end Spec

/-- The sum of the accumulated impulses of contacts. -/
def contactSum (n : V2 K) : List (Contact K) → V2 K
  | [] => V2.zero
  | c :: cs => (n.rotate ⟨c.jnAcc, c.jtAcc⟩).add (contactSum n cs)

theorem momGain_trans (a b c : Body K) : momGain a c = (momGain a b).add (momGain b c) := by
  refine V2.ext ?_ ?_ <;> simp [momGain, V2.add]

theorem cachedLoop_gain (n : V2 K) (cs : List (Contact K)) : ∀ a b : Body K, FiniteMass b →
    momGain b (Arbiter.cachedLoop n 1 cs a b).2 = contactSum n cs := by
  induction cs with
  | nil => intro a b _; exact momGain_self b
  | cons c cs ih =>
    intro a b hb
    have ex := applyImpulses_exchange a b c.r1 c.r2 ((n.rotate ⟨c.jnAcc, c.jtAcc⟩).scale 1)
    simp only [Arbiter.cachedLoop, contactSum]
    rw [momGain_trans b (applyImpulses a b c.r1 c.r2 ((n.rotate ⟨c.jnAcc, c.jtAcc⟩).scale 1)).2,
      ih _ _ (ex.sameB.finiteMass.1 hb), applyImpulses_gain _ _ hb]
    refine V2.ext ?_ ?_ <;> simp [V2.scale, V2.add]

theorem impulseLoop_gain (n sv : V2 K) (u : K) (cs : List (Contact K)) : ∀ a b : Body K, FiniteMass b →
    momGain b (Arbiter.impulseLoop n sv u cs a b).2.1
      = (contactSum n (Arbiter.impulseLoop n sv u cs a b).2.2).sub (contactSum n cs) := by
  induction cs with
  | nil => intro a b _; simp only [Arbiter.impulseLoop, contactSum, momGain_self]; simp [V2.sub, V2.zero]
  | cons c cs ih =>
    intro a b hb
    have ex := contactStep_exchange n sv u a b c
    have h1 : momGain b (Arbiter.contactStep n sv u a b c).2.1
        = (n.rotate ⟨(Arbiter.contactStep n sv u a b c).2.2.jnAcc, (Arbiter.contactStep n sv u a b c).2.2.jtAcc⟩).sub
          (n.rotate ⟨c.jnAcc, c.jtAcc⟩) := by
      have e : ∀ (x y : Body K) (v : V2 K), linMom x = linMom b → FiniteMass x → momGain b (applyImpulses y x c.r1 c.r2 v).2 = v := by
        intro x y v h1 h2
        have h3 := applyImpulses_gain y x h2 c.r1 c.r2 v
        simp only [momGain, h1] at h3 ⊢
        exact h3
      refine (e _ a _ rfl hb).trans ?_
      refine V2.ext ?_ ?_ <;> simp only [Arbiter.contactStep, V2.rotate, V2.sub] <;> ring
    simp only [Arbiter.impulseLoop, contactSum]
    rw [momGain_trans b (Arbiter.contactStep n sv u a b c).2.1, ih _ _ (ex.sameB.finiteMass.1 hb), h1]
    refine V2.ext ?_ ?_ <;> simp only [V2.sub, V2.add] <;> ring

theorem foldl_contactSum (n : V2 K) (cs : List (Contact K)) : ∀ z : V2 K,
    cs.foldl (fun s con => s.add (n.rotate ⟨con.jnAcc, con.jtAcc⟩)) z = z.add (contactSum n cs) := by
  induction cs with
  | nil => intro z; simp only [List.foldl_nil, contactSum]; refine V2.ext ?_ ?_ <;> simp [V2.add, V2.zero]
  | cons c cs ih =>
    intro z
    rw [List.foldl_cons, ih, contactSum]
    refine V2.ext ?_ ?_ <;> simp only [V2.add] <;> ring

theorem arbGain_key (arb : Arbiter K) (warm : Body K × Body K) (bodies : Nat → Body K × Body K)
    (hst : arb.state = .normal ∨ (arb.state = .first ∧ ∀ c ∈ arb.contacts, c.jnAcc = 0 ∧ c.jtAcc = 0))
    (hw : FiniteMass warm.2) (hb : ∀ k, FiniteMass (bodies k).2) (n : Nat) :
    arbGain arb warm bodies n = contactSum arb.normal (iterateArb arb bodies n).contacts ∧
    (iterateArb arb bodies n).normal = arb.normal ∧ (iterateArb arb bodies n).state = arb.state ∧
    (iterateArb arb bodies n).swapped = arb.swapped := by
  have hz : ∀ cs : List (Contact K), (∀ c ∈ cs, c.jnAcc = 0 ∧ c.jtAcc = 0) → contactSum arb.normal cs = V2.zero := by
    intro cs
    induction cs with
    | nil => intro _; rfl
    | cons c cs ih =>
      intro h
      have h1 := h c (by simp)
      rw [contactSum, ih (fun c hc => h c (by simp [hc])), h1.1, h1.2]
      refine V2.ext ?_ ?_ <;> simp [V2.rotate, V2.add, V2.zero]
  induction n with
  | zero =>
    refine ⟨?_, rfl, rfl, rfl⟩
    simp only [arbGain, iterateArb, Arbiter.applyCachedImpulse]
    rcases hst with h | ⟨h, h'⟩
    · rw [if_neg (by rw [h]; simp)]
      exact cachedLoop_gain _ _ _ _ hw
    · rw [if_pos h, hz _ h', momGain_self]
  | succ n ih =>
    obtain ⟨i1, i2, i3, i4⟩ := ih
    refine ⟨?_, i2, i3, i4⟩
    simp only [arbGain, iterateArb, Arbiter.applyImpulse]
    rw [i1, impulseLoop_gain _ _ _ _ _ _ (hb n), i2]
    refine V2.ext ?_ ?_ <;> simp only [V2.sub, V2.add] <;> ring

/-- **C72** With a steady time step, `TotalImpulse` after a step is the momentum the collision has taken from the
second body in the collision's own order, that is given to the first, and the other way round when the handler
sees the shapes swapped. A first collision is not warm started and must start with zero impulses; `Update` sees to
that except when the pair touched within the last `CollisionPersistence` steps, see `C72_retouch`. -/
theorem C72_total_partial (arb : Arbiter K) (warm : Body K × Body K) (bodies : Nat → Body K × Body K)
    (hst : arb.state = .normal ∨ (arb.state = .first ∧ ∀ c ∈ arb.contacts, c.jnAcc = 0 ∧ c.jtAcc = 0))
    (hw : FiniteMass warm.2) (hb : ∀ k, FiniteMass (bodies k).2) (n : Nat) :
    (iterateArb arb bodies n).totalImpulse
      = if arb.swapped then arbGain arb warm bodies n else (arbGain arb warm bodies n).neg := by
  obtain ⟨k1, k2, k3, k4⟩ := arbGain_key arb warm bodies hst hw hb n
  have hcount : (iterateArb arb bodies n).count = (iterateArb arb bodies n).contacts.length := by
    unfold Arbiter.count
    rw [k3]
    rcases hst with h | ⟨h, _⟩ <;> rw [h]
  unfold Arbiter.totalImpulse
  rw [hcount, List.take_length, k2, k4, foldl_contactSum, ← k1]
  have e : V2.zero.add (arbGain arb warm bodies n) = arbGain arb warm bodies n := by
    refine V2.ext ?_ ?_ <;> simp [V2.add, V2.zero]
  rw [e]

/-! ### The hypotheses are met -/

example : Linear (.pin exPin) ∧ FiniteMass exRB ∧ RodApart (.pin exPin) exRA exRB ∧
    (iterateJoint realMth 1 ((Joint.pin exPin).preStep realMth 1000 exRA exRB 1).2.2 (fun _ => (exRA, exRB)) 1).getImpulse realMth
      = 5/4 := by
  refine ⟨trivial, ?_, ?_, ?_⟩
  · unfold FiniteMass; eval_model
  · simp only [RodApart]; unfold exPin; eval_model
  · simp only [iterateJoint, Joint.preStep, Joint.applyImpulse, Joint.getImpulse, PinJoint.getImpulse]
    unfold exPin
    eval_model

example : Rotor (.motor ⟨⟨10, 1, 1⟩, 3, 1/2, 0⟩ : Joint ℚ) ∧ FiniteMoment exBall ∧
    (iterateJoint toyMth 1 ((Joint.motor ⟨⟨10, 1, 1⟩, 3, 1/2, 0⟩ : Joint ℚ).preStep toyMth 1000 exBlock exBall 1).2.2
      (fun _ => (exBlock, exBall)) 1).getImpulse toyMth ≠ 0 := by
  refine ⟨trivial, ?_, ?_⟩ <;> (try unfold FiniteMoment) <;> decide +kernel

example : exArb.state = .normal ∧ FiniteMass exBall ∧
    (iterateArb exArb (fun _ => (exBlock, exBall)) 2).totalImpulse ≠ V2.zero := by
  refine ⟨rfl, ?_, ?_⟩ <;> (try unfold FiniteMass) <;> decide +kernel

end Cm
