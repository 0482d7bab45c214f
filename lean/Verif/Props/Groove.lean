import Verif.Props.Strut
import Verif.Props.JointNew
import Verif.Props.Energy
/-! # C140: what a groove does, and where it fails

The point of the second body that runs in the groove of the first may move along it and not across it. -/
set_option linter.unusedSectionVars false
set_option linter.unusedSimpArgs false
set_option linter.unusedVariables false

namespace Cm
open Spec
variable {K : Type} [Field K] [LinearOrder K] [IsStrictOrderedRing K]

namespace Spec
/-- What the impulse `j` changes about the relative velocity of the two points it acts at. -/
def response (a b : Body K) (r1 r2 j : V2 K) : V2 K := (relVel (applyImpulses a b r1 r2 j).1 (applyImpulses a b r1 r2 j).2 r1 r2).sub (relVel a b r1 r2)
/-- What an impulse across the groove changes across it, what it changes along it, and what one along it changes along it. -/
def acrossAcross (a b : Body K) (r1 r2 n : V2 K) : K := (response a b r1 r2 n).dot n
def acrossAlong (a b : Body K) (r1 r2 n : V2 K) : K := (response a b r1 r2 n).dot n.perp
def alongAlong (a b : Body K) (r1 r2 n : V2 K) : K := (response a b r1 r2 n.perp).dot n.perp
/-- The joint runs between the ends of the groove: the settings of its inner state. -/
structure Runs (j : GrooveJoint K) (a b : Body K) : Prop where
  free : j.clamp = 0
  unit : j.grooveTn.dot j.grooveTn = 1
  tensor : j.k = kTensor a b j.r1 j.r2
end Spec

/-! ## One iteration -/

theorem response_eq (a b : Body K) (r1 r2 j : V2 K) : response a b r1 r2 j =
    ⟨(a.mInv + b.mInv + r1.y * r1.y * a.iInv + r2.y * r2.y * b.iInv) * j.x + (-r1.x * r1.y * a.iInv + -r2.x * r2.y * b.iInv) * j.y,
     (-r1.x * r1.y * a.iInv + -r2.x * r2.y * b.iInv) * j.x + (a.mInv + b.mInv + r1.x * r1.x * a.iInv + r2.x * r2.x * b.iInv) * j.y⟩ := by
  unfold response relVel pointVel applyImpulses V2.sub
  refine V2.ext ?_ ?_ <;> (simp only []; ring)

theorem relVel_push (a b : Body K) (r1 r2 j : V2 K) : relVel (applyImpulses a b r1 r2 j).1 (applyImpulses a b r1 r2 j).2 r1 r2 = (relVel a b r1 r2).add (response a b r1 r2 j) := by
  unfold response
  refine V2.ext ?_ ?_ <;> simp [V2.add, V2.sub]

theorem response_same {a b a' b' : Body K} (ha : a'.mInv = a.mInv ∧ a'.iInv = a.iInv) (hb : b'.mInv = b.mInv ∧ b'.iInv = b.iInv) (r1 r2 j : V2 K) : response a' b' r1 r2 j = response a b r1 r2 j := by
  rw [response_eq, response_eq, ha.1, ha.2, hb.1, hb.2]

/-- The impulse that would correct everything, as that of a pivot does. -/
theorem pivotal {a b : Body K} (hm : Movable a b) (r1 r2 want : V2 K) :
    response a b r1 r2 ((kTensor a b r1 r2).transform (want.sub (relativeVelocity a b r1 r2))) = want.sub (relVel a b r1 r2) := by
  unfold response
  have := kTensor_solves hm r1 r2 want
  dsimp only at this
  rw [this]

theorem response_inj {a b : Body K} (hm : Movable a b) {r1 r2 i j : V2 K} (h : response a b r1 r2 i = response a b r1 r2 j) : i = j := by
  have hd := ne_of_gt (kTensor_det hm r1 r2)
  rw [response_eq, response_eq] at h
  have hx := congrArg V2.x h
  have hy := congrArg V2.y h
  dsimp only at hx hy
  generalize a.mInv + b.mInv + r1.y * r1.y * a.iInv + r2.y * r2.y * b.iInv = p at *
  generalize a.mInv + b.mInv + r1.x * r1.x * a.iInv + r2.x * r2.x * b.iInv = q at *
  generalize -r1.x * r1.y * a.iInv + -r2.x * r2.y * b.iInv = s at *
  refine V2.ext ?_ ?_
  · refine mul_right_cancel₀ hd ?_
    linear_combination q * hx - s * hy
  · refine mul_right_cancel₀ hd ?_
    linear_combination p * hy - s * hx

theorem response_add (a b : Body K) (r1 r2 i j : V2 K) : response a b r1 r2 (i.add j) = (response a b r1 r2 i).add (response a b r1 r2 j) := by
  rw [response_eq, response_eq, response_eq]
  refine V2.ext ?_ ?_ <;> simp only [V2.add] <;> ring

theorem response_sub (a b : Body K) (r1 r2 i j : V2 K) : response a b r1 r2 (i.sub j) = (response a b r1 r2 i).sub (response a b r1 r2 j) := by
  rw [response_eq, response_eq, response_eq]
  refine V2.ext ?_ ?_ <;> simp only [V2.sub] <;> ring

theorem response_scale (a b : Body K) (r1 r2 i : V2 K) (s : K) : response a b r1 r2 (i.scale s) = (response a b r1 r2 i).scale s := by
  rw [response_eq, response_eq]
  refine V2.ext ?_ ?_ <;> simp only [V2.scale] <;> ring

theorem project_unit (w n : V2 K) (hn : n.dot n = 1) : w.project n = n.scale (w.dot n) := by
  unfold V2.project
  rw [hn, div_one]

/-- What the joint wants in an iteration: the impulse that a pivot would have given in all. -/
theorem groove_want {j : GrooveJoint K} {a b : Body K} (hm : Movable a b) (hr : Runs j a b) :
    response a b j.r1 j.r2 (j.jAcc.add (j.k.transform (j.bias.sub (relativeVelocity a b j.r1 j.r2)))) = (j.bias.sub (relVel a b j.r1 j.r2)).add (response a b j.r1 j.r2 j.jAcc) := by
  rw [response_add, hr.tensor, pivotal hm]
  refine V2.ext ?_ ?_ <;> simp only [V2.add] <;> ring

theorem groove_acc {M : Mth K} {j : GrooveJoint K} {a b : Body K} (hr : Runs j a b) (dt : K) (d : V2 K) :
    j.grooveConstrain M d dt = (j.grooveTn.scale (d.dot j.grooveTn)).clampMag M (j.maxForce * dt) := by
  unfold GrooveJoint.grooveConstrain
  dsimp only
  rw [hr.free, zero_mul, if_neg (lt_irrefl _), project_unit _ _ hr.unit]

/-- **C140.** The first iteration of a groove joint is its last: a further one changes neither the bodies nor the joint. -/
theorem C140_same (M : Mth K) {j : GrooveJoint K} {a b : Body K} (hm : Movable a b) (hr : Runs j a b) (dt : K) :
    let x := j.applyImpulse M a b dt
    x.2.2.applyImpulse M x.1 x.2.1 dt = x := by
  intro x
  have hx : x = ((applyImpulses a b j.r1 j.r2 (x.2.2.jAcc.sub j.jAcc)).1, (applyImpulses a b j.r1 j.r2 (x.2.2.jAcc.sub j.jAcc)).2, { j with jAcc := x.2.2.jAcc }) := rfl
  have hacc : x.2.2.jAcc = j.grooveConstrain M (j.jAcc.add (j.k.transform (j.bias.sub (relativeVelocity a b j.r1 j.r2)))) dt := rfl
  have hwant := groove_want hm hr
  generalize j.jAcc.add (j.k.transform (j.bias.sub (relativeVelocity a b j.r1 j.r2))) = d at hacc hwant
  generalize x.2.2.jAcc = i at hx hacc
  rw [hx]
  have hmm : ∀ c : V2 K, (applyImpulses a b j.r1 j.r2 c).1.mInv = a.mInv ∧ (applyImpulses a b j.r1 j.r2 c).1.iInv = a.iInv := fun c => ⟨rfl, rfl⟩
  have hmm' : ∀ c : V2 K, (applyImpulses a b j.r1 j.r2 c).2.mInv = b.mInv ∧ (applyImpulses a b j.r1 j.r2 c).2.iInv = b.iInv := fun c => ⟨rfl, rfl⟩
  have hm' : Movable (applyImpulses a b j.r1 j.r2 (i.sub j.jAcc)).1 (applyImpulses a b j.r1 j.r2 (i.sub j.jAcc)).2 := hm
  have hr' : Runs { j with jAcc := i } (applyImpulses a b j.r1 j.r2 (i.sub j.jAcc)).1 (applyImpulses a b j.r1 j.r2 (i.sub j.jAcc)).2 := ⟨hr.free, hr.unit, hr.tensor⟩
  have hw2 := groove_want hm' hr'
  dsimp only at hw2
  rw [response_same (hmm _) (hmm' _), response_same (hmm _) (hmm' _), relVel_push, response_sub] at hw2
  have hd : i.add (j.k.transform (j.bias.sub (relativeVelocity (applyImpulses a b j.r1 j.r2 (i.sub j.jAcc)).1 (applyImpulses a b j.r1 j.r2 (i.sub j.jAcc)).2 j.r1 j.r2))) = d := by
    refine response_inj (r1 := j.r1) (r2 := j.r2) hm ?_
    rw [hw2, hwant]
    refine V2.ext ?_ ?_ <;> simp only [V2.add, V2.sub] <;> ring
  unfold GrooveJoint.applyImpulse
  dsimp only
  rw [hd]
  have hc : GrooveJoint.grooveConstrain M { j with jAcc := i } d dt = i := by rw [hacc]; rfl
  rw [hc]
  have hz : i.sub i = V2.zero := by refine V2.ext ?_ ?_ <;> simp [V2.sub, V2.zero]
  rw [hz]
  have hp := push_nothing (applyImpulses a b j.r1 j.r2 (i.sub j.jAcc)).1 (applyImpulses a b j.r1 j.r2 (i.sub j.jAcc)).2 j.r1 j.r2 0
  rw [show (V2.zero : V2 K).scale 0 = V2.zero by refine V2.ext ?_ ?_ <;> simp [V2.scale, V2.zero]] at hp
  rw [hp]

/-- **C140.** What an iteration leaves: with `e` the change of the relative velocity that is asked for, counted from where the bodies would be without the joint, the velocity across the
groove differs from the one asked for by `B (B e_n - A e_t) / (A C - B²)`. -/
theorem C140_miss {M : Mth K} (hM : M.Lawful) {j : GrooveJoint K} {a b : Body K} (hm : Movable a b) (hr : Runs j a b) (dt : K) :
    let x := j.applyImpulse M a b dt
    let A := acrossAcross a b j.r1 j.r2 j.grooveTn
    let B := acrossAlong a b j.r1 j.r2 j.grooveTn
    let C := alongAlong a b j.r1 j.r2 j.grooveTn
    let e := (j.bias.sub (relVel a b j.r1 j.r2)).add (response a b j.r1 j.r2 j.jAcc)
    x.2.2.jAcc.lengthSq < (j.maxForce * dt) * (j.maxForce * dt) →
    0 < A * C - B * B ∧
    ((relVel x.1 x.2.1 j.r1 j.r2).sub j.bias).dot j.grooveTn * (A * C - B * B) = B * (B * e.dot j.grooveTn - A * e.dot j.grooveTn.perp) := by
  intro x A B C e hlim
  have hx : x = ((applyImpulses a b j.r1 j.r2 (x.2.2.jAcc.sub j.jAcc)).1, (applyImpulses a b j.r1 j.r2 (x.2.2.jAcc.sub j.jAcc)).2, { j with jAcc := x.2.2.jAcc }) := rfl
  have hacc : x.2.2.jAcc = j.grooveConstrain M (j.jAcc.add (j.k.transform (j.bias.sub (relativeVelocity a b j.r1 j.r2)))) dt := rfl
  have hwant : response a b j.r1 j.r2 (j.jAcc.add (j.k.transform (j.bias.sub (relativeVelocity a b j.r1 j.r2)))) = e := groove_want hm hr
  have he : e = (j.bias.sub (relVel a b j.r1 j.r2)).add (response a b j.r1 j.r2 j.jAcc) := rfl
  clear_value e
  generalize j.jAcc.add (j.k.transform (j.bias.sub (relativeVelocity a b j.r1 j.r2))) = d at hacc hwant
  rw [groove_acc hr] at hacc
  have hun : x.2.2.jAcc = j.grooveTn.scale (d.dot j.grooveTn) := by
    rw [hacc] at hlim ⊢
    exact clampMag_inside hM _ _ hlim
  rw [hun] at hx
  have hv : (relVel x.1 x.2.1 j.r1 j.r2).sub j.bias = ((response a b j.r1 j.r2 j.grooveTn).scale (d.dot j.grooveTn)).sub e := by
    rw [hx, he]
    dsimp only
    rw [relVel_push, response_sub, response_scale]
    refine V2.ext ?_ ?_ <;> simp only [V2.add, V2.sub] <;> ring
  rw [hv, ← hwant]
  have hu := hr.unit
  have hdet := kTensor_det hm j.r1 j.r2
  show 0 < (response a b j.r1 j.r2 j.grooveTn).dot j.grooveTn * (response a b j.r1 j.r2 j.grooveTn.perp).dot j.grooveTn.perp -
      (response a b j.r1 j.r2 j.grooveTn).dot j.grooveTn.perp * (response a b j.r1 j.r2 j.grooveTn).dot j.grooveTn.perp ∧
    _ * ((response a b j.r1 j.r2 j.grooveTn).dot j.grooveTn * (response a b j.r1 j.r2 j.grooveTn.perp).dot j.grooveTn.perp -
      (response a b j.r1 j.r2 j.grooveTn).dot j.grooveTn.perp * (response a b j.r1 j.r2 j.grooveTn).dot j.grooveTn.perp) =
      (response a b j.r1 j.r2 j.grooveTn).dot j.grooveTn.perp * ((response a b j.r1 j.r2 j.grooveTn).dot j.grooveTn.perp * _ - (response a b j.r1 j.r2 j.grooveTn).dot j.grooveTn * _)
  simp only [response_eq]
  generalize a.mInv + b.mInv + j.r1.y * j.r1.y * a.iInv + j.r2.y * j.r2.y * b.iInv = p at *
  generalize a.mInv + b.mInv + j.r1.x * j.r1.x * a.iInv + j.r2.x * j.r2.x * b.iInv = q at *
  generalize -j.r1.x * j.r1.y * a.iInv + -j.r2.x * j.r2.y * b.iInv = s at *
  generalize j.grooveTn = n at *
  obtain ⟨nx, ny⟩ := n
  obtain ⟨dx, dy⟩ := d
  simp only [V2.dot, V2.perp, V2.scale, V2.sub] at *
  have hD : ((p * nx + s * ny) * nx + (s * nx + q * ny) * ny) * ((p * -ny + s * nx) * -ny + (s * -ny + q * nx) * nx) -
      ((p * nx + s * ny) * -ny + (s * nx + q * ny) * nx) * ((p * nx + s * ny) * -ny + (s * nx + q * ny) * nx) = (p * q - s * s) * (nx * nx + ny * ny) * (nx * nx + ny * ny) := by ring
  refine ⟨by rw [hD, hu]; linarith, ?_⟩
  obtain ⟨u, v, rfl, rfl⟩ : ∃ u v, dx = u * nx - v * ny ∧ dy = u * ny + v * nx :=
    ⟨dx * nx + dy * ny, dy * nx - dx * ny, by linear_combination -dx * hu, by linear_combination -dy * hu⟩
  have h1 : (u * nx - v * ny) * nx + (u * ny + v * nx) * ny = u := by linear_combination u * hu
  rw [h1]
  ring

theorem acrossAcross_pos {a b : Body K} (hm : Movable a b) {r1 r2 n : V2 K} (hn : n.dot n = 1) : 0 < acrossAcross a b r1 r2 n := by
  obtain ⟨h1, h2, h3, h4, h5⟩ := hm
  have e : acrossAcross a b r1 r2 n = (a.mInv + b.mInv) * n.dot n + a.iInv * (r1.x * n.y - r1.y * n.x) ^ 2 + b.iInv * (r2.x * n.y - r2.y * n.x) ^ 2 := by
    unfold acrossAcross
    rw [response_eq]
    simp only [V2.dot]
    ring
  rw [e, hn]
  have := mul_nonneg h3 (sq_nonneg (r1.x * n.y - r1.y * n.x))
  have := mul_nonneg h4 (sq_nonneg (r2.x * n.y - r2.y * n.x))
  linarith

/-- **C140.** If an impulse across the groove does not move the points along it, the joint does what is asked of it: the velocity across the groove is the correcting one. -/
theorem C140_balanced {M : Mth K} (hM : M.Lawful) {j : GrooveJoint K} {a b : Body K} (hm : Movable a b) (hr : Runs j a b) (dt : K) (hB : acrossAlong a b j.r1 j.r2 j.grooveTn = 0) :
    let x := j.applyImpulse M a b dt
    x.2.2.jAcc.lengthSq < (j.maxForce * dt) * (j.maxForce * dt) → (relVel x.1 x.2.1 j.r1 j.r2).dot j.grooveTn = j.bias.dot j.grooveTn := by
  intro x hlim
  obtain ⟨h1, h2⟩ := C140_miss hM hm hr dt hlim
  rw [hB] at h1 h2
  rw [zero_mul (_ - _)] at h2
  have h3 := (mul_eq_zero.1 h2).resolve_right h1.ne'
  have e : ((relVel x.1 x.2.1 j.r1 j.r2).sub j.bias).dot j.grooveTn = (relVel x.1 x.2.1 j.r1 j.r2).dot j.grooveTn - j.bias.dot j.grooveTn := by
    unfold V2.sub V2.dot; ring
  change ((relVel x.1 x.2.1 j.r1 j.r2).sub j.bias).dot j.grooveTn = 0 at h3
  rw [e] at h3
  linarith

/-- **C140.** Else it kicks: two bodies whose points slide along the groove and not across it, with nothing to correct, leave the joint with a velocity across the groove. -/
theorem C140_kick {M : Mth K} (hM : M.Lawful) {j : GrooveJoint K} {a b : Body K} (hm : Movable a b) (hr : Runs j a b) (dt : K) (hB : acrossAlong a b j.r1 j.r2 j.grooveTn ≠ 0)
    (hbias : j.bias = V2.zero) (hacc : j.jAcc = V2.zero) {s : K} (hs : s ≠ 0) (hv : relVel a b j.r1 j.r2 = j.grooveTn.perp.scale s) :
    let x := j.applyImpulse M a b dt
    (relVel a b j.r1 j.r2).dot j.grooveTn = 0 ∧
    (x.2.2.jAcc.lengthSq < (j.maxForce * dt) * (j.maxForce * dt) → (relVel x.1 x.2.1 j.r1 j.r2).dot j.grooveTn ≠ 0) := by
  intro x
  refine ⟨by rw [hv]; simp only [V2.dot, V2.perp, V2.scale]; ring, fun hlim h0 => ?_⟩
  obtain ⟨h1, h2⟩ := C140_miss hM hm hr dt hlim
  have hz : response a b j.r1 j.r2 V2.zero = V2.zero := by rw [response_eq]; simp [V2.zero]
  have hA := acrossAcross_pos (r1 := j.r1) (r2 := j.r2) hm hr.unit
  have hu := hr.unit
  rw [hbias, hacc, hz, hv] at h2
  have e0 : ((relVel (j.applyImpulse M a b dt).1 (j.applyImpulse M a b dt).2.1 j.r1 j.r2).sub V2.zero).dot j.grooveTn = 0 := by
    have : (relVel (j.applyImpulse M a b dt).1 (j.applyImpulse M a b dt).2.1 j.r1 j.r2).dot j.grooveTn = 0 := h0
    simpa [V2.sub, V2.dot, V2.zero] using this
  rw [e0, zero_mul] at h2
  generalize j.grooveTn = n at *
  have e1 : (((V2.zero : V2 K).sub (n.perp.scale s)).add V2.zero).dot n = 0 := by
    simp only [V2.dot, V2.perp, V2.scale, V2.add, V2.sub, V2.zero]; ring
  have e2 : (((V2.zero : V2 K).sub (n.perp.scale s)).add V2.zero).dot n.perp = -s := by
    simp only [V2.dot, V2.perp, V2.scale, V2.add, V2.sub, V2.zero] at hu ⊢; linear_combination -s * hu
  rw [e1, e2] at h2
  refine mul_ne_zero hB (mul_ne_zero hA.ne' hs) ?_
  linear_combination -h2

/-! ## The solver -/

theorem groove_iter (M : Mth K) (dt : K) (A B : Body K) (G : GrooveJoint K) : ∀ (n : Nat) (x : Body K × Body K × Joint K), Kin A x.1 → Kin B x.2.1 → (∃ j, x.2.2 = .groove { G with jAcc := j }) →
    let y := (fun x : Body K × Body K × Joint K => x.2.2.applyImpulse M x.1 x.2.1 dt)^[n] x
    Kin A y.1 ∧ Kin B y.2.1 ∧ (∃ j, y.2.2 = .groove { G with jAcc := j }) ∧ (Immovable A → y.1.v = x.1.v ∧ y.1.w = x.1.w) := by
  intro n
  induction n with
  | zero => intro x h1 h2 h3; exact ⟨h1, h2, h3, fun _ => ⟨rfl, rfl⟩⟩
  | succ n ih =>
    rintro ⟨a', b', jt⟩ h1 h2 ⟨j, rfl : jt = _⟩
    rw [Function.iterate_succ_apply]
    obtain ⟨i1, i2, i3, i4⟩ := ih ((Joint.groove { G with jAcc := j }).applyImpulse M a' b' dt) (kin_trans h1 (kin_push a' b' G.r1 G.r2 _).1) (kin_trans h2 (kin_push a' b' G.r1 G.r2 _).2) ⟨_, rfl⟩
    refine ⟨i1, i2, i3, fun hA => ?_⟩
    obtain ⟨k1, k2⟩ := i4 hA
    have e1 : a'.mInv = 0 := h1.2.2.2.2.1.trans hA.1
    have e2 : a'.iInv = 0 := h1.2.2.2.2.2.1.trans hA.2
    have e : ∀ c : V2 K, (applyImpulses a' b' G.r1 G.r2 c).1.v = a'.v ∧ (applyImpulses a' b' G.r1 G.r2 c).1.w = a'.w := by
      intro c
      unfold applyImpulses
      dsimp only
      rw [e1, e2]
      exact ⟨V2.ext (by simp) (by simp), by simp⟩
    exact ⟨k1.trans (e _).1, k2.trans (e _).2⟩

theorem kin_tensor {A B a b : Body K} (ha : Kin A a) (hb : Kin B b) (r1 r2 : V2 K) : kTensor a b r1 r2 = kTensor A B r1 r2 := by
  unfold kTensor
  obtain ⟨-, -, -, -, h5, h6, -⟩ := ha
  obtain ⟨-, -, -, -, k5, k6, -⟩ := hb
  rw [h5, h6, k5, k6]

/-- What the solver makes of a groove. -/
theorem groove_solve {M : Mth K} (hM : M.Lawful) {par : Params K} (hn : par.iterations ≠ 0) (prevDT dt : K) (dyn : List Nat) (ia ib : Nat) (a b : Body K) (g : GrooveJoint K) (hm : Movable a b) :
    let A := placed M dt dyn ia a
    let B := placed M dt dyn ib b
    let G := g.preStep M A B dt
    let r := jointSolve M par prevDT dt dyn ia ib a b (.groove g)
    Kin A r.1 ∧ Kin B r.2.1 ∧ (ia ∉ dyn → Immovable a → r.1.v = a.v ∧ r.1.w = a.w) ∧ ∃ j, r.2.2 = .groove { G with jAcc := j } ∧
      (G.clamp = 0 → G.grooveTn.dot G.grooveTn = 1 → acrossAlong A B G.r1 G.r2 G.grooveTn = 0 → j.lengthSq < (g.maxForce * dt) * (g.maxForce * dt) →
        (relVel r.1 r.2.1 G.r1 G.r2).dot G.grooveTn = G.bias.dot G.grooveTn) := by
  intro A B G r
  have hmAB : Movable A B := placed_movable M dt dyn ia ib hm
  generalize hco : (if prevDT ≠ 0 then dt / prevDT else 0) = co
  have hGf : G.maxForce = g.maxForce := rfl
  have hGk : G.k = kTensor A B G.r1 G.r2 := rfl
  have hr : r = (fun x : Body K × Body K × Joint K => x.2.2.applyImpulse M x.1 x.2.1 dt)^[par.iterations]
      ((applyImpulses (readied M par dt dyn ia a) (readied M par dt dyn ib b) G.r1 G.r2 (G.jAcc.scale co)).1,
        (applyImpulses (readied M par dt dyn ia a) (readied M par dt dyn ib b) G.r1 G.r2 (G.jAcc.scale co)).2, .groove G) := by
    rw [← hco]; rfl
  clear_value G
  have k0 := kin_push (readied M par dt dyn ia a) (readied M par dt dyn ib b) G.r1 G.r2 (G.jAcc.scale co)
  have ka := kin_trans (kin_readied M par dt dyn ia a) k0.1
  have kb := kin_trans (kin_readied M par dt dyn ib b) k0.2
  have hstill : ia ∉ dyn → Immovable a → (applyImpulses (readied M par dt dyn ia a) (readied M par dt dyn ib b) G.r1 G.r2 (G.jAcc.scale co)).1.v = a.v ∧
      (applyImpulses (readied M par dt dyn ia a) (readied M par dt dyn ib b) G.r1 G.r2 (G.jAcc.scale co)).1.w = a.w := by
    intro h1 h2
    have e : readied M par dt dyn ia a = a := by unfold readied placed; rw [if_neg h1, if_neg h1]
    rw [e]
    unfold applyImpulses
    dsimp only
    rw [h2.1, h2.2]
    exact ⟨V2.ext (by simp) (by simp), by simp⟩
  generalize applyImpulses (readied M par dt dyn ia a) (readied M par dt dyn ib b) G.r1 G.r2 (G.jAcc.scale co) = ab at hr ka kb hstill
  obtain ⟨z1, z2, ⟨j2, z3⟩, z4⟩ := groove_iter M dt A B G par.iterations (ab.1, ab.2, .groove G) ka kb ⟨G.jAcc, rfl⟩
  rw [← hr] at z1 z2 z3 z4
  refine ⟨z1, z2, fun h1 h2 => ?_, j2, z3, fun hc hu hB hlim => ?_⟩
  · have hA : Immovable A := by show Immovable (placed M dt dyn ia a); unfold placed; rw [if_neg h1]; exact h2
    exact ⟨(z4 hA).1.trans (hstill h1 h2).1, (z4 hA).2.trans (hstill h1 h2).2⟩
  obtain ⟨n, hn'⟩ := Nat.exists_eq_succ_of_ne_zero hn
  rw [hn', Function.iterate_succ_apply'] at hr
  obtain ⟨i1, i2, ⟨j, i3⟩, -⟩ := groove_iter M dt A B G n (ab.1, ab.2, .groove G) ka kb ⟨G.jAcc, rfl⟩
  generalize (fun x : Body K × Body K × Joint K => x.2.2.applyImpulse M x.1 x.2.1 dt)^[n] (ab.1, ab.2, .groove G) = y at hr i1 i2 i3
  obtain ⟨a', b', jt⟩ := y
  dsimp only at hr i1 i2 i3
  subst i3
  have hr' : r = (((GrooveJoint.applyImpulse M { G with jAcc := j } a' b' dt).1, (GrooveJoint.applyImpulse M { G with jAcc := j } a' b' dt).2.1, Joint.groove (GrooveJoint.applyImpulse M { G with jAcc := j } a' b' dt).2.2) : Body K × Body K × Joint K) := hr
  have hj2 : (GrooveJoint.applyImpulse M { G with jAcc := j } a' b' dt).2.2.jAcc = j2 := by
    rw [hr'] at z3
    have := Joint.groove.inj z3
    rw [this]
  have hb := C140_balanced (j := { G with jAcc := j }) hM (kin_movable hmAB i1 i2) ⟨hc, hu, hGk.trans (kin_tensor i1 i2 _ _).symm⟩ dt (by
    show acrossAlong a' b' G.r1 G.r2 G.grooveTn = 0
    rw [← hB]
    unfold acrossAlong
    rw [response_same ⟨i1.2.2.2.2.1, i1.2.2.2.2.2.1⟩ ⟨i2.2.2.2.2.1, i2.2.2.2.2.2.1⟩])
  have := hb (by rw [hj2]; show _ < (G.maxForce * dt) * (G.maxForce * dt); rw [hGf]; exact hlim)
  rw [hr']
  exact this

/-! ## A body that runs with its centre of gravity in a groove of the ground -/

namespace Spec
/-- The direction across the groove. -/
def grooveNormal (M : Mth K) (ia : Nat) (g : GrooveJoint K) (w : World K) : V2 K := armAt M (w.bodies ia).angle g.grooveN
/-- How far the point of the second body is off the line of the groove. -/
def offGroove (M : Mth K) (ia ib : Nat) (g : GrooveJoint K) (w : World K) : K := (openness M ia ib g.grooveA g.anchorB w).dot (grooveNormal M ia g w)
/-- How fast the body moves off it. -/
def strays (M : Mth K) (ia ib : Nat) (g : GrooveJoint K) (w : World K) : K := (w.bodies ib).v.dot (grooveNormal M ia g w)
/-- The point is between the two ends of the groove. -/
def InGroove (M : Mth K) (ia ib : Nat) (g : GrooveJoint K) (w : World K) : Prop :=
  0 < (openness M ia ib g.grooveA g.anchorB w).cross (grooveNormal M ia g w) ∧ (openness M ia ib g.grooveB g.anchorB w).cross (grooveNormal M ia g w) < 0
/-- The bodies are joined by the groove joint; the first one is the ground, and the second one runs in the groove with its centre of gravity. -/
structure Grooved (M : Mth K) (ia ib : Nat) (g : GrooveJoint K) (w : World K) : Prop extends Braced M ia ib w where
  joint : ∃ g', JoinedBy w ia ib (.groove g') ∧ g'.toJointCfg = g.toJointCfg ∧ g'.grooveN = g.grooveN ∧ g'.grooveA = g.grooveA ∧ g'.grooveB = g.grooveB ∧ g'.anchorB = g.anchorB
  ground : Immovable (w.bodies ia) ∧ (w.bodies ia).v = V2.zero ∧ (w.bodies ia).w = 0
  centre : (w.bodies ib).cog = g.anchorB
/-- The joint did not need its greatest force. -/
def GrooveHolds (dt : K) (ia ib : Nat) (w : World K) : Prop := ∀ g', JoinedBy w ia ib (.groove g') → g'.jAcc.lengthSq < (g'.maxForce * dt) * (g'.maxForce * dt)
end Spec

theorem vector_arm {M : Mth K} {b : Body K} (h : Placed M b) (d : V2 K) : b.tr.applyVector d = armAt M b.angle d := by
  unfold armAt
  rw [show b.tr = _ from h]
  refine V2.ext ?_ ?_ <;> simp only [Body.mkTransform, Transform.transpose, Transform.applyVector] <;> ring

theorem arm_unit {M : Mth K} (hM : M.Lawful) (θ : K) {d : V2 K} (h : d.dot d = 1) : (armAt M θ d).dot (armAt M θ d) = 1 := by
  have := hM.cos_sin θ
  unfold armAt
  simp only [V2.dot] at *
  linear_combination (d.x * d.x + d.y * d.y) * this + h

/-- **C140.** One step: the body moves on with its speed, and unless the joint needs its greatest force, it leaves the body exactly the speed across the groove that takes its part of the
distance from the groove away. -/
theorem C140_step {M : Mth K} (hM : M.Lawful) {sc : Scene K} (hn : sc.par.iterations ≠ 0) {dt : K} (h0 : 0 < dt) {ia ib : Nat} {g : GrooveJoint K} (hu : g.grooveN.dot g.grooveN = 1)
    (hc1 : M.pow g.errorBias dt ≤ 1) {w : World K} {t : Tick K} (hw : Grooved M ia ib g w) (h : Swings sc dt ia ib w t (w.step M sc t)) (hia : ia ∉ t.dyn) :
    let w' := w.step M sc t
    Grooved M ia ib g w' ∧ offGroove M ia ib g w' = offGroove M ia ib g w + dt * strays M ia ib g w ∧
    (InGroove M ia ib g w' → GrooveHolds dt ia ib w' → (1 - M.pow g.errorBias dt) * |offGroove M ia ib g w'| ≤ g.maxBias * dt →
      strays M ia ib g w' = -((1 - M.pow g.errorBias dt) * offGroove M ia ib g w' / dt)) := by
  intro w'
  obtain rfl := h.length
  obtain ⟨hf, ⟨g1, j1, c1, c2, c3, c4, c5⟩, ⟨im, gv, gw⟩, hcen⟩ := hw
  obtain ⟨ka, kb, hst, j, r1, r2⟩ := groove_solve hM hn w.prevDT t.dt t.dyn ia ib (w.bodies ia) (w.bodies ib) g1 hf.movable
  obtain ⟨q1, q2, q3⟩ := tied_step h0 j1 hf h ⟨ka, kb⟩
  have hmov : ¬ (Immovable (w.bodies ia) ∧ Immovable (w.bodies ib)) := by
    rintro ⟨i1, i2⟩
    have := hf.movable.2.2.2.2
    rw [i1.1, i2.1] at this
    simp at this
  obtain ⟨ea, eb, -⟩ := only_joint h0.ne' j1 h.free hmov
  obtain ⟨s1, s2⟩ := hst hia im
  rw [r1] at q1
  have hA : placed M t.dt t.dyn ia (w.bodies ia) = w.bodies ia := by unfold placed; rw [if_neg hia]
  obtain ⟨pb, pb1, pb2, pb3, pb4, pb5⟩ := placed_spot (dt := t.dt) h.borne.2 hf.seated.2
  rw [hA] at ka r1 r2 q1 q3
  have hang : (w'.bodies ia).angle = (w.bodies ia).angle := by
    show ((w.step M sc t).bodies ia).angle = _
    rw [ea]; exact ka.2.2.2.1
  have hnorm : grooveNormal M ia g w' = grooveNormal M ia g w := by unfold grooveNormal; rw [hang]
  have hcog : (w'.bodies ib).cog = g.anchorB := by
    show ((w.step M sc t).bodies ib).cog = _
    rw [eb, kb.2.2.1, pb3]; exact hcen
  have hground : Immovable (w'.bodies ia) ∧ (w'.bodies ia).v = V2.zero ∧ (w'.bodies ia).w = 0 := by
    show Immovable ((w.step M sc t).bodies ia) ∧ ((w.step M sc t).bodies ia).v = _ ∧ ((w.step M sc t).bodies ia).w = _
    rw [ea]
    exact ⟨⟨ka.2.2.2.2.1.trans im.1, ka.2.2.2.2.2.1.trans im.2⟩, s1.trans gv, s2.trans gw⟩
  refine ⟨⟨q2, ⟨_, q1, c1, c2, c3, c4, c5⟩, hground, hcog⟩, ?_, fun hin hh hB => ?_⟩
  · obtain ⟨o1, -, -⟩ := q3 g.grooveA g.anchorB
    have hz : ∀ θ : K, armAt M θ (g.anchorB.sub g.anchorB) = V2.zero := fun θ => by unfold armAt V2.sub V2.zero; simp
    have e1 : opening M ia ib g.grooveA g.anchorB w = (w.bodies ib).v := by
      unfold opening relVel pointVel
      rw [gv, gw, hcen, hz]
      simp [V2.zero]
    have e2 : swerving M t.dt ia ib g.grooveA g.anchorB w = V2.zero := by
      unfold swerving swerve
      rw [gw, hcen, hz, hz]
      refine V2.ext ?_ ?_ <;> simp [V2.sub, V2.zero]
    unfold offGroove strays
    rw [hnorm]
    show (openness M ia ib g.grooveA g.anchorB (w.step M sc t)).dot _ = _
    rw [o1, e1, e2]
    simp only [V2.dot, V2.add, V2.scale, V2.zero]
    ring
  · obtain ⟨-, oa, -⟩ := q3 g.grooveA g.anchorB
    obtain ⟨-, ob, -⟩ := q3 g.grooveB g.anchorB
    change Spec.gap _ _ _ _ = openness M ia ib g.grooveA g.anchorB w' at oa
    change Spec.gap _ _ _ _ = openness M ia ib g.grooveB g.anchorB w' at ob
    have hlim := hh _ q1
    have hpl : Placed M (w.bodies ia) := hf.seated.1.1
    set n := grooveNormal M ia g w with hndef
    have hn1 : (w.bodies ia).tr.applyVector g.grooveN = n := vector_arm hpl _
    have hun : n.dot n = 1 := arm_unit hM _ hu
    generalize hBb : placed M t.dt t.dyn ib (w.bodies ib) = B at *
    have hr2 : anchorOffset B g.anchorB = V2.zero := by
      rw [offset_arm pb.1, pb3, hcen]
      unfold armAt V2.sub V2.zero; simp
    have hta : ∀ c, (w.bodies ia).tr.apply c = (w.bodies ia).p.add (anchorOffset (w.bodies ia) c) := fun c => (placed_anchor hpl c).symm
    have ga : openness M ia ib g.grooveA g.anchorB w' = B.p.sub ((w.bodies ia).tr.apply g.grooveA) := by
      rw [← oa, hta]; unfold Spec.gap; rw [hr2]; refine V2.ext ?_ ?_ <;> simp [V2.add, V2.sub, V2.zero]
    have gb : openness M ia ib g.grooveB g.anchorB w' = B.p.sub ((w.bodies ia).tr.apply g.grooveB) := by
      rw [← ob, hta]; unfold Spec.gap; rw [hr2]; refine V2.ext ?_ ?_ <;> simp [V2.add, V2.sub, V2.zero]
    unfold InGroove at hin
    rw [hnorm, ga, gb] at hin
    have hoff : offGroove M ia ib g w' = (B.p.sub ((w.bodies ia).tr.apply g.grooveA)).dot n := by unfold offGroove; rw [hnorm, ga]
    have hstr : strays M ia ib g w' = (jointSolve M sc.par w.prevDT t.dt t.dyn ia ib (w.bodies ia) (w.bodies ib) (.groove g1)).2.1.v.dot n := by
      unfold strays; rw [hnorm]
      show ((w.step M sc t).bodies ib).v.dot _ = _
      rw [eb]
    rw [hstr, hoff]
    rw [hoff] at hB
    have hb0 : B.p.add V2.zero = B.p := by refine V2.ext ?_ ?_ <;> simp [V2.add, V2.zero]
    have hs1 : ¬ B.p.cross n ≤ ((w.bodies ia).tr.apply g.grooveA).cross n := by
      have := hin.1
      simp only [V2.cross, V2.sub] at this ⊢
      rw [not_le]; linarith
    have hs2 : ¬ B.p.cross n ≥ ((w.bodies ia).tr.apply g.grooveB).cross n := by
      have := hin.2
      simp only [V2.cross, V2.sub] at this ⊢
      rw [ge_iff_le, not_le]; linarith
    have P1 : (g1.preStep M (w.bodies ia) B t.dt).grooveTn = n := by rw [← hn1, ← c2]; rfl
    have P2 : (g1.preStep M (w.bodies ia) B t.dt).r2 = V2.zero := by rw [← hr2, ← c5]; rfl
    have P3 : (g1.preStep M (w.bodies ia) B t.dt).clamp = 0 := by
      unfold GrooveJoint.preStep
      dsimp only
      rw [c2, c3, c4, c5, hr2, hn1, hb0, if_neg hs1, if_neg hs2]
    have P4 : (g1.preStep M (w.bodies ia) B t.dt).bias = n.scale (-((1 - M.pow g.errorBias t.dt) * (B.p.sub ((w.bodies ia).tr.apply g.grooveA)).dot n / t.dt)) := by
      have hd : (B.p.sub ((w.bodies ia).p.add (((n.perp.scale (-(B.p.cross n))).add (n.scale (((w.bodies ia).tr.apply g.grooveA).dot n))).sub (w.bodies ia).p))) =
          n.scale ((B.p.sub ((w.bodies ia).tr.apply g.grooveA)).dot n) := by
        have hun' := hun
        simp only [V2.dot] at hun'
        refine V2.ext ?_ ?_ <;> simp only [V2.sub, V2.add, V2.scale, V2.perp, V2.cross, V2.dot]
        · linear_combination -B.p.x * hun'
        · linear_combination -B.p.y * hun'
      have e5 : g1.errorBias = g.errorBias := congrArg JointCfg.errorBias c1
      have e6 : g1.maxBias = g.maxBias := congrArg JointCfg.maxBias c1
      unfold GrooveJoint.preStep
      dsimp only
      rw [c2, c3, c4, c5, hr2, hn1, hb0, if_neg hs1, if_neg hs2, hd, e5, e6]
      generalize (B.p.sub ((w.bodies ia).tr.apply g.grooveA)).dot n = o at *
      have e7 : (n.scale o).scale (-(biasCoef M g.errorBias t.dt) / t.dt) = n.scale (-((1 - M.pow g.errorBias t.dt) * o / t.dt)) := by
        unfold biasCoef
        refine V2.ext ?_ ?_ <;> simp only [V2.scale] <;> ring
      rw [e7]
      refine clampMag_within M ?_
      have e8 : |(1 - M.pow g.errorBias t.dt) * o / t.dt| ≤ g.maxBias := by
        rw [abs_div, abs_mul, abs_of_pos h0, abs_of_nonneg (by linarith : (0 : K) ≤ 1 - M.pow g.errorBias t.dt), div_le_iff₀ h0]
        exact hB
      have e9 := sq_le_sq' (by linarith [abs_nonneg ((1 - M.pow g.errorBias t.dt) * o / t.dt)] : -g.maxBias ≤ |(1 - M.pow g.errorBias t.dt) * o / t.dt|) e8
      rw [sq_abs] at e9
      have hun' := hun
      simp only [V2.dot] at hun'
      simp only [V2.scale]
      generalize (1 - M.pow g.errorBias t.dt) * o / t.dt = y at *
      have : n.x * -y * (n.x * -y) + n.y * -y * (n.y * -y) = y ^ 2 := by linear_combination y ^ 2 * hun'
      rw [this]; exact e9
    have hgoal := r2 P3 (by rw [P1]; exact hun) (by
      rw [P1, P2]
      unfold acrossAlong
      rw [response_eq, im.1, im.2]
      simp only [V2.dot, V2.perp, V2.zero]
      ring) hlim
    rw [P1, P2, P4] at hgoal
    have hrel : (relVel (jointSolve M sc.par w.prevDT t.dt t.dyn ia ib (w.bodies ia) (w.bodies ib) (.groove g1)).1 (jointSolve M sc.par w.prevDT t.dt t.dyn ia ib (w.bodies ia) (w.bodies ib) (.groove g1)).2.1
        (g1.preStep M (w.bodies ia) B t.dt).r1 V2.zero) = (jointSolve M sc.par w.prevDT t.dt t.dyn ia ib (w.bodies ia) (w.bodies ib) (.groove g1)).2.1.v := by
      unfold relVel pointVel
      rw [s1, s2, gv, gw]
      simp [V2.zero]
    rw [hrel] at hgoal
    rw [hgoal]
    simp only [V2.dot, V2.scale] at hun ⊢
    linear_combination (-((1 - M.pow g.errorBias t.dt) * ((B.p.sub ((w.bodies ia).tr.apply g.grooveA)).x * n.x + (B.p.sub ((w.bodies ia).tr.apply g.grooveA)).y * n.y) / t.dt)) * hun

/-- **C140.** Any number of steps: while the body is between the ends and the joint is strong enough, its distance from the groove shrinks in each step to exactly the part
`errorBias ^ dt` of itself, whatever pulls at the body and however fast it runs along the groove. -/
theorem C140_groove {M : Mth K} (hM : M.Lawful) {sc : Scene K} (hn : sc.par.iterations ≠ 0) {dt : K} (h0 : 0 < dt) {ia ib : Nat} {g : GrooveJoint K} (hu : g.grooveN.dot g.grooveN = 1)
    (he : 0 ≤ g.errorBias ∧ g.errorBias ≤ 1) {w : World K} (hw : Grooved M ia ib g w) (t₀ : Tick K) (ticks : List (Tick K))
    (h : EveryStep M sc (fun w t w' => Swings sc dt ia ib w t w' ∧ ia ∉ t.dyn ∧ InGroove M ia ib g w' ∧ GrooveHolds dt ia ib w') w (t₀ :: ticks))
    (hB : (1 - M.pow g.errorBias dt) * |offGroove M ia ib g (w.step M sc t₀)| ≤ g.maxBias * dt) :
    ∃ w', w.run M sc ((t₀ :: ticks).map .step) = some w' ∧ Grooved M ia ib g w' ∧
      offGroove M ia ib g w' = M.pow g.errorBias dt ^ ticks.length * offGroove M ia ib g (w.step M sc t₀) := by
  have hc0 : 0 ≤ M.pow g.errorBias dt := hM.pow_nonneg _ _ he.1
  have hc1 : M.pow g.errorBias dt ≤ 1 := hM.pow_le _ _ he.1 he.2 h0.le
  obtain ⟨⟨p0, q0, y0, z0⟩, hrest⟩ := h
  obtain ⟨r0, -, s0⟩ := C140_step hM hn h0 hu hc1 hw p0 q0
  replace s0 := s0 y0 z0 hB
  rw [List.map_cons]
  show ∃ w', (w.step M sc t₀).run M sc (ticks.map .step) = some w' ∧ _
  generalize w.step M sc t₀ = w1 at *
  clear p0 q0 y0 z0 hw w
  induction ticks generalizing w1 with
  | nil => exact ⟨w1, rfl, r0, by simp⟩
  | cons t ts ih =>
    obtain ⟨⟨p1, q1, y1, z1⟩, hr⟩ := hrest
    obtain ⟨r1, o1, s1⟩ := C140_step hM hn h0 hu hc1 r0 p1 q1
    have e : offGroove M ia ib g (w1.step M sc t) = M.pow g.errorBias dt * offGroove M ia ib g w1 := by
      rw [o1, s0]; field_simp; ring
    have hB' : (1 - M.pow g.errorBias dt) * |offGroove M ia ib g (w1.step M sc t)| ≤ g.maxBias * dt := by
      rw [e, abs_mul, abs_of_nonneg hc0]
      have h1 : 0 ≤ (1 - M.pow g.errorBias dt) * |offGroove M ia ib g w1| := mul_nonneg (by linarith) (abs_nonneg _)
      nlinarith
    obtain ⟨w', a1, a2, a3⟩ := ih (w1.step M sc t) hB' hr r1 (s1 y1 z1 hB')
    refine ⟨w', a1, a2, ?_⟩
    rw [a3, e, List.length_cons, pow_succ]
    ring

/-! ## Examples: a body that starts 3 above a level groove in the ground, runs along it and is pulled by a force; and a body tied off its centre that is kicked -/

def exGuided (k : Nat) : Body ℚ :=
  if k = 0 then { Body.blank with mInv := 0, iInv := 0, tr := ⟨1, 0, 0, 1, 0, 0⟩ }
  else { Body.blank with m := 1, mInv := 1, i := 2, iInv := 1/2, v := ⟨2, 0⟩, force := ⟨1, -7⟩, torque := 2, p := ⟨0, 3⟩, tr := ⟨1, 0, 0, 1, 0, 3⟩ }
def exSlot : GrooveJoint ℚ := ⟨⟨1000, 1/2, 100⟩, ⟨0, 1⟩, ⟨-10, 0⟩, ⟨10, 0⟩, ⟨0, 0⟩, ⟨0, 0⟩, 0, ⟨0, 0⟩, ⟨0, 0⟩, ⟨0, 0, 0, 0⟩, ⟨0, 0⟩, ⟨0, 0⟩⟩
def exGuide : World ℚ := { World.init exGuided (fun _ => ⟨.circle ⟨⟨0, 0⟩, ⟨0, 0⟩, 1⟩, ⟨0, 0, 0, 0⟩, 0, ⟨1, 0⟩⟩) with joints := [⟨0, 1, .groove exSlot⟩] }
def exSlideTick : Tick ℚ := ⟨1/4, [1], [], fun _ _ => true, fun _ _ => true⟩
def exGrooveForce (ls : List (Link (Joint ℚ))) : V2 ℚ × ℚ :=
  match ls with
  | [⟨_, _, .groove g⟩] => (g.jAcc, g.maxForce)
  | _ => (⟨0, 0⟩, 0)

theorem exGrooveHolds {w : World ℚ} (h : let f := exGrooveForce (w.joints.filter fun l => (l.ia == 0 || l.ia == 1) && (l.ib == 0 || l.ib == 1)); f.1.lengthSq < (f.2 * (1/4)) * (f.2 * (1/4))) : GrooveHolds (1/4) 0 1 w := by
  intro g' hj
  have e : (g'.jAcc, g'.maxForce) = _ := congrArg exGrooveForce hj.joint.symm
  have e1 := congrArg Prod.fst e
  have e2 := congrArg Prod.snd e
  dsimp only at e1 e2
  rw [e1, e2]
  exact h

theorem exSlides {sc : Scene ℚ} {w w' : World ℚ} (h1 : (w.joints.all fun l => (l.ia == 0 || l.ia == 1) && (l.ib == 0 || l.ib == 1)) = true) (h2 : w'.active = []) (h3 : (w.bodies 0).v = V2.zero ∧ (w.bodies 0).w = 0) :
    Swings sc (1/4) 0 1 w exSlideTick w' := by
  refine ⟨rfl, ⟨.inr h3, .inl (by decide)⟩, ⟨fun l hl hn => ?_, fun p hp => ?_⟩⟩
  · have := List.all_eq_true.1 h1 l hl
    simp only [Bool.and_eq_true, Bool.or_eq_true, beq_iff_eq] at this
    exact absurd this hn
  · rw [h2] at hp
    exact absurd hp List.not_mem_nil

example : Grooved toyMth 0 1 exSlot exGuide ∧ exSlot.grooveN.dot exSlot.grooveN = 1 ∧
    EveryStep toyMth exBalls3 (fun w t w' => Swings exBalls3 (1/4) 0 1 w t w' ∧ 0 ∉ t.dyn ∧ InGroove toyMth 0 1 exSlot w' ∧ GrooveHolds (1/4) 0 1 w') exGuide [exSlideTick, exSlideTick] ∧
    (let w1 := exGuide.step toyMth exBalls3 exSlideTick
     offGroove toyMth 0 1 exSlot w1 = 3 ∧ offGroove toyMth 0 1 exSlot (w1.step toyMth exBalls3 exSlideTick) = 3/2 ∧
     (1 - toyMth.pow exSlot.errorBias (1/4)) * |offGroove toyMth 0 1 exSlot w1| ≤ exSlot.maxBias * (1/4)) := by
  refine ⟨⟨⟨by unfold Seated Placed; decide +kernel, by unfold Movable; decide +kernel⟩, ⟨exSlot, ⟨by decide, rfl⟩, rfl, rfl, rfl, rfl, rfl⟩, ⟨⟨rfl, rfl⟩, rfl, rfl⟩, rfl⟩, by decide +kernel,
    ⟨⟨exSlides (by decide +kernel) (by decide +kernel) (by decide +kernel), by decide, by unfold InGroove; decide +kernel, exGrooveHolds (by decide +kernel)⟩,
     ⟨exSlides (by decide +kernel) (by decide +kernel) (by decide +kernel), by decide, by unfold InGroove; decide +kernel, exGrooveHolds (by decide +kernel)⟩, trivial⟩,
    by decide +kernel, by decide +kernel, by decide +kernel⟩

/-- A joint whose point is tied off the centre of a block, which slides along the groove with the speed 3. -/
def exOff : GrooveJoint ℚ :=
  { maxForce := 1000, errorBias := 1, maxBias := 0, grooveN := ⟨0, 1⟩, grooveA := ⟨-10, 1⟩, grooveB := ⟨10, 1⟩, anchorB := ⟨1, 1⟩,
    grooveTn := ⟨0, 1⟩, clamp := 0, r1 := ⟨1, 1⟩, r2 := ⟨1, 1⟩, k := kTensor exFloor (exMoving ⟨3, 0⟩) ⟨1, 1⟩ ⟨1, 1⟩, jAcc := ⟨0, 0⟩, bias := ⟨0, 0⟩ }

example : Runs exOff exFloor (exMoving ⟨3, 0⟩) ∧ Movable exFloor (exMoving ⟨3, 0⟩) ∧ acrossAlong exFloor (exMoving ⟨3, 0⟩) exOff.r1 exOff.r2 exOff.grooveTn = 1 ∧
    relVel exFloor (exMoving ⟨3, 0⟩) exOff.r1 exOff.r2 = exOff.grooveTn.perp.scale (-3) := by
  refine ⟨⟨rfl, by decide +kernel, rfl⟩, by unfold Movable; decide +kernel, by decide +kernel, by decide +kernel⟩

end Cm
