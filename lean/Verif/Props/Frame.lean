import Verif.Model.Step
import Verif.Props.JointMomentum
import Mathlib.Tactic.LinearCombination
/-! # C91: the laws of motion are the same in every frame -/
set_option linter.unusedSectionVars false
set_option linter.unusedSimpArgs false
set_option linter.unusedVariables false

namespace Cm
open Spec
variable {K : Type} [Field K] [LinearOrder K] [IsStrictOrderedRing K]

namespace Spec
/-- A frame of reference: turned by `r` (a unit complex number, of angle `th`), displaced by `d`, and moving with velocity `u`. -/
structure Frame (K : Type) where
  r : V2 K
  th : K
  d : V2 K
  u : V2 K

namespace Frame
variable (F : Frame K)
/-- A direction, in the frame. -/
def vec (v : V2 K) : V2 K := ⟨F.r.x * v.x - F.r.y * v.y, F.r.y * v.x + F.r.x * v.y⟩
/-- A place, in the frame. -/
def pt (v : V2 K) : V2 K := (F.vec v).add F.d
/-- A placement, in the frame. -/
def tr (t : Transform K) : Transform K :=
  ⟨F.r.x * t.a - F.r.y * t.b, F.r.y * t.a + F.r.x * t.b, F.r.x * t.c - F.r.y * t.d, F.r.y * t.c + F.r.x * t.d,
    F.r.x * t.tx - F.r.y * t.ty + F.d.x, F.r.y * t.tx + F.r.x * t.ty + F.d.y⟩
/-- A body, in the frame. -/
def body (b : Body K) : Body K :=
  { b with angle := b.angle + F.th, p := F.pt b.p, v := (F.vec b.v).add F.u, force := F.vec b.force, tr := F.tr b.tr, vBias := F.vec b.vBias }
/-- A symmetric or other linear map of directions, in the frame. -/
def mat (m : Mat2x2 K) : Mat2x2 K :=
  ⟨F.r.x * (m.a * F.r.x - m.b * F.r.y) - F.r.y * (m.c * F.r.x - m.d * F.r.y),
   F.r.x * (m.a * F.r.y + m.b * F.r.x) - F.r.y * (m.c * F.r.y + m.d * F.r.x),
   F.r.y * (m.a * F.r.x - m.b * F.r.y) + F.r.x * (m.c * F.r.x - m.d * F.r.y),
   F.r.y * (m.a * F.r.y + m.b * F.r.x) + F.r.x * (m.c * F.r.y + m.d * F.r.x)⟩
/-- A contact, in the frame. -/
def contact (c : Contact K) : Contact K := { c with r1 := F.vec c.r1, r2 := F.vec c.r2 }
/-- A collision, in the frame. -/
def arb (a : Arbiter K) : Arbiter K := { a with surfaceVr := F.vec a.surfaceVr, normal := F.vec a.normal, contacts := a.contacts.map F.contact }
/-- A joint, in the frame: what is measured along with a body stays the same. -/
def joint : Joint K → Joint K
  | .pin j => .pin { j with r1 := F.vec j.r1, r2 := F.vec j.r2, n := F.vec j.n }
  | .slide j => .slide { j with r1 := F.vec j.r1, r2 := F.vec j.r2, n := F.vec j.n }
  | .pivot j => .pivot { j with r1 := F.vec j.r1, r2 := F.vec j.r2, k := F.mat j.k, jAcc := F.vec j.jAcc, bias := F.vec j.bias }
  | .groove j => .groove { j with grooveTn := F.vec j.grooveTn, r1 := F.vec j.r1, r2 := F.vec j.r2, k := F.mat j.k, jAcc := F.vec j.jAcc, bias := F.vec j.bias }
  | .gear j => .gear j
  | .ratchet j => .ratchet j
  | .rotaryLimit j => .rotaryLimit j
  | .motor j => .motor j
  | .spring j => .spring { j with r1 := F.vec j.r1, r2 := F.vec j.r2, n := F.vec j.n }
  | .rotarySpring j => .rotarySpring j
/-- The frame is a rotation. -/
def Turn : Prop := F.r.x * F.r.x + F.r.y * F.r.y = 1
end Frame

/-- A rigid placement. -/
def RigidTr (t : Transform K) : Prop := t.c = -t.b ∧ t.d = t.a ∧ t.a * t.a + t.b * t.b = 1

/-- What the frame asks of a joint: the two angles of a gear are compared with each other only if its ratio is one; the normal of a groove is a
unit vector. -/
def Indifferent (F : Frame K) : Joint K → Prop
  | .gear j => j.ratio = 1 ∨ F.th = 0
  | .groove j => j.grooveN.lengthSq = 1
  | _ => True
end Spec

section helpers
variable (F : Frame K)

theorem Spec.Frame.vec_add (v w : V2 K) : (F.vec v).add (F.vec w) = F.vec (v.add w) := by simp only [Frame.vec, V2.add]; ext <;> ring
theorem Spec.Frame.vec_sub (v w : V2 K) : (F.vec v).sub (F.vec w) = F.vec (v.sub w) := by simp only [Frame.vec, V2.sub]; ext <;> ring
theorem Spec.Frame.vec_scale (v : V2 K) (t : K) : (F.vec v).scale t = F.vec (v.scale t) := by simp only [Frame.vec, V2.scale]; ext <;> ring
theorem Spec.Frame.vec_neg (v : V2 K) : (F.vec v).neg = F.vec v.neg := by simp only [Frame.vec, V2.neg]; ext <;> ring
theorem Spec.Frame.vec_perp (v : V2 K) : (F.vec v).perp = F.vec v.perp := by simp only [Frame.vec, V2.perp]; ext <;> ring
theorem Spec.Frame.vec_zero : F.vec V2.zero = V2.zero := by simp [Frame.vec, V2.zero]
theorem Spec.Frame.vec_rotate (v w : V2 K) : (F.vec v).rotate w = F.vec (v.rotate w) := by simp only [Frame.vec, V2.rotate]; ext <;> ring
variable {F} (hF : F.Turn)
include hF
theorem Spec.Frame.vec_dot (v w : V2 K) : (F.vec v).dot (F.vec w) = v.dot w := by
  unfold Frame.Turn at hF; simp only [Frame.vec, V2.dot]; linear_combination (v.x * w.x + v.y * w.y) * hF
theorem Spec.Frame.vec_cross (v w : V2 K) : (F.vec v).cross (F.vec w) = v.cross w := by
  unfold Frame.Turn at hF; simp only [Frame.vec, V2.cross]; linear_combination (v.x * w.y - v.y * w.x) * hF
theorem Spec.Frame.vec_lengthSq (v : V2 K) : (F.vec v).lengthSq = v.lengthSq := Frame.vec_dot hF v v
theorem Spec.Frame.vec_mag (M : Mth K) (v : V2 K) : (F.vec v).mag M = v.mag M := by simp only [V2.mag, Frame.vec_lengthSq hF]
theorem Spec.Frame.vec_unit (M : Mth K) (v : V2 K) : (F.vec v).unit M = F.vec (v.unit M) := by
  simp only [V2.unit, Frame.vec_mag hF, Frame.vec_scale]
theorem Spec.Frame.vec_clampMag (M : Mth K) (v : V2 K) (m : K) : (F.vec v).clampMag M m = F.vec (v.clampMag M m) := by
  simp only [V2.clampMag, Frame.vec_dot hF, Frame.vec_unit hF, Frame.vec_scale]; split <;> rfl
theorem Spec.Frame.vec_project (v w : V2 K) : (F.vec v).project (F.vec w) = F.vec (v.project w) := by
  simp only [V2.project, Frame.vec_dot hF, Frame.vec_scale]
theorem Spec.Frame.vec_eq_zero (v : V2 K) : F.vec v = V2.zero ↔ v = V2.zero := by
  constructor
  · intro h
    apply lengthSq_eq_zero
    rw [← Frame.vec_lengthSq hF, h]; simp [V2.lengthSq, V2.dot, V2.zero]
  · rintro rfl; exact Frame.vec_zero F

theorem Spec.Frame.mat_transform (m : Mat2x2 K) (v : V2 K) : (F.mat m).transform (F.vec v) = F.vec (m.transform v) := by
  unfold Frame.Turn at hF
  simp only [Frame.mat, Frame.vec, Mat2x2.transform]
  ext
  · simp only; linear_combination (F.r.x * (v.x * m.a + v.y * m.b) - F.r.y * (v.x * m.c + v.y * m.d)) * hF
  · simp only; linear_combination (F.r.y * (v.x * m.a + v.y * m.b) + F.r.x * (v.x * m.c + v.y * m.d)) * hF

theorem applyVector_frame (t : Transform K) (v : V2 K) : (F.tr t).applyVector v = F.vec (t.applyVector v) := by
  simp only [Frame.tr, Frame.vec, Transform.applyVector]; ext <;> ring
theorem apply_frame (t : Transform K) (v : V2 K) : (F.tr t).apply v = F.pt (t.apply v) := by
  simp only [Frame.tr, Frame.vec, Frame.pt, V2.add, Transform.apply]; ext <;> ring

theorem anchorOffset_frame (b : Body K) (q : V2 K) : anchorOffset (F.body b) q = F.vec (anchorOffset b q) := by
  simp only [anchorOffset, Frame.body]; exact applyVector_frame hF _ _

theorem applyImpulses_frame (a b : Body K) (r1 r2 j : V2 K) :
    applyImpulses (F.body a) (F.body b) (F.vec r1) (F.vec r2) (F.vec j) = (F.body (applyImpulses a b r1 r2 j).1, F.body (applyImpulses a b r1 r2 j).2) := by
  unfold Frame.Turn at hF
  simp only [applyImpulses, Frame.body, Frame.vec, Frame.pt, V2.add]
  refine Prod.ext ?_ ?_
  · simp only [Body.mk.injEq, V2.mk.injEq, true_and, and_true]
    refine ⟨?_, ?_, ?_⟩
    · linear_combination (-a.iInv * (r1.x * j.y - r1.y * j.x)) * hF
    · ring
    · ring
  · simp only [Body.mk.injEq, V2.mk.injEq, true_and, and_true]
    refine ⟨?_, ?_, ?_⟩
    · linear_combination (b.iInv * (r2.x * j.y - r2.y * j.x)) * hF
    · ring
    · ring

theorem applyBiasImpulses_frame (a b : Body K) (r1 r2 j : V2 K) :
    applyBiasImpulses (F.body a) (F.body b) (F.vec r1) (F.vec r2) (F.vec j)
      = (F.body (applyBiasImpulses a b r1 r2 j).1, F.body (applyBiasImpulses a b r1 r2 j).2) := by
  unfold Frame.Turn at hF
  simp only [applyBiasImpulses, Frame.body, Frame.vec, Frame.pt, V2.add]
  refine Prod.ext ?_ ?_
  · simp only [Body.mk.injEq, V2.mk.injEq, true_and, and_true]
    refine ⟨⟨?_, ?_⟩, ?_⟩
    · ring
    · ring
    · linear_combination (-a.iInv * (r1.x * j.y - r1.y * j.x)) * hF
  · simp only [Body.mk.injEq, V2.mk.injEq, true_and, and_true]
    refine ⟨⟨?_, ?_⟩, ?_⟩
    · ring
    · ring
    · linear_combination (b.iInv * (r2.x * j.y - r2.y * j.x)) * hF

theorem relativeVelocity_frame (a b : Body K) (r1 r2 : V2 K) :
    relativeVelocity (F.body a) (F.body b) (F.vec r1) (F.vec r2) = F.vec (relativeVelocity a b r1 r2) := by
  simp only [relativeVelocity, Frame.body, Frame.vec, V2.sub, V2.add, V2.scale, V2.perp]; ext <;> ring

theorem kScalar_frame (a b : Body K) (r1 r2 n : V2 K) : kScalar (F.body a) (F.body b) (F.vec r1) (F.vec r2) (F.vec n) = kScalar a b r1 r2 n := by
  simp only [kScalar, kScalarBody, Frame.vec_cross hF]; rfl

theorem kTensor_frame (a b : Body K) (r1 r2 : V2 K) : kTensor (F.body a) (F.body b) (F.vec r1) (F.vec r2) = F.mat (kTensor a b r1 r2) := by
  unfold Frame.Turn at hF
  obtain ⟨⟨x, y⟩, th, d, u⟩ := F
  simp only [kTensor, Frame.body, Frame.vec, Frame.mat] at *
  set P := a.mInv; set Q := b.mInv; set I := a.iInv; set J := b.iInv
  have hdet : ((P + Q + (y * r1.x + x * r1.y) * (y * r1.x + x * r1.y) * I + (y * r2.x + x * r2.y) * (y * r2.x + x * r2.y) * J) *
        (P + Q + (x * r1.x - y * r1.y) * (x * r1.x - y * r1.y) * I + (x * r2.x - y * r2.y) * (x * r2.x - y * r2.y) * J) -
      (0 + -(x * r1.x - y * r1.y) * (y * r1.x + x * r1.y) * I + -(x * r2.x - y * r2.y) * (y * r2.x + x * r2.y) * J) *
        (0 + -(x * r1.x - y * r1.y) * (y * r1.x + x * r1.y) * I + -(x * r2.x - y * r2.y) * (y * r2.x + x * r2.y) * J)) =
      ((P + Q + r1.y * r1.y * I + r2.y * r2.y * J) * (P + Q + r1.x * r1.x * I + r2.x * r2.x * J) -
        (0 + -r1.x * r1.y * I + -r2.x * r2.y * J) * (0 + -r1.x * r1.y * I + -r2.x * r2.y * J)) := by
    have c1 : (x * r1.x - y * r1.y) * (y * r2.x + x * r2.y) - (y * r1.x + x * r1.y) * (x * r2.x - y * r2.y) = r1.x * r2.y - r1.y * r2.x := by
      linear_combination (r1.x * r2.y - r1.y * r2.x) * hF
    have l1 : (x * r1.x - y * r1.y) * (x * r1.x - y * r1.y) + (y * r1.x + x * r1.y) * (y * r1.x + x * r1.y) = r1.x * r1.x + r1.y * r1.y := by
      linear_combination (r1.x * r1.x + r1.y * r1.y) * hF
    have l2 : (x * r2.x - y * r2.y) * (x * r2.x - y * r2.y) + (y * r2.x + x * r2.y) * (y * r2.x + x * r2.y) = r2.x * r2.x + r2.y * r2.y := by
      linear_combination (r2.x * r2.x + r2.y * r2.y) * hF
    generalize x * r1.x - y * r1.y = X1 at *
    generalize y * r1.x + x * r1.y = Y1 at *
    generalize x * r2.x - y * r2.y = X2 at *
    generalize y * r2.x + x * r2.y = Y2 at *
    linear_combination (P + Q) * I * l1 + (P + Q) * J * l2 + I * J * (X1 * Y2 - Y1 * X2 + (r1.x * r2.y - r1.y * r2.x)) * c1
  rw [hdet]
  generalize 1 / ((P + Q + r1.y * r1.y * I + r2.y * r2.y * J) * (P + Q + r1.x * r1.x * I + r2.x * r2.x * J) -
        (0 + -r1.x * r1.y * I + -r2.x * r2.y * J) * (0 + -r1.x * r1.y * I + -r2.x * r2.y * J)) = D
  simp only [Mat2x2.mk.injEq]
  refine ⟨?_, ?_, ?_, ?_⟩
  · linear_combination -(P + Q) * D * hF
  · ring
  · ring
  · linear_combination -(P + Q) * D * hF

/-! ## Contacts -/

omit hF in
theorem Spec.Frame.pt_sub (F : Frame K) (v w : V2 K) : (F.pt v).sub (F.pt w) = F.vec (v.sub w) := by
  simp only [Frame.pt, Frame.vec, V2.sub, V2.add]; ext <;> ring
omit hF in
theorem Spec.Frame.pt_add (F : Frame K) (v w : V2 K) : (F.pt v).add (F.vec w) = F.pt (v.add w) := by
  simp only [Frame.pt, Frame.vec, V2.add]; ext <;> ring

theorem preStepContact_frame (arb : Arbiter K) (a b : Body K) (dt slop bias : K) (c : Contact K) :
    (F.arb arb).preStepContact (F.body a) (F.body b) dt slop bias (F.contact c) = F.contact (arb.preStepContact a b dt slop bias c) := by
  have e : (F.body b).p.sub (F.body a).p = F.vec (b.p.sub a.p) := Frame.pt_sub F _ _
  simp only [Arbiter.preStepContact, Frame.arb, Frame.contact, e, Frame.vec_sub, Frame.vec_add, Frame.vec_perp, Frame.vec_dot hF,
    kScalar_frame hF, normalRelativeVelocity, relativeVelocity_frame hF]

theorem preStep_frame (arb : Arbiter K) (a b : Body K) (dt slop bias : K) :
    (F.arb arb).preStep (F.body a) (F.body b) dt slop bias = F.arb (arb.preStep a b dt slop bias) := by
  have : (F.arb arb).contacts.map ((F.arb arb).preStepContact (F.body a) (F.body b) dt slop bias)
      = (arb.contacts.map (arb.preStepContact a b dt slop bias)).map F.contact := by
    show (arb.contacts.map F.contact).map _ = _
    rw [List.map_map, List.map_map]
    exact List.map_congr_left fun c _ => preStepContact_frame hF arb a b dt slop bias c
  simp only [Arbiter.preStep]
  rw [this]; rfl

theorem cachedLoop_frame (n : V2 K) (t : K) (cs : List (Contact K)) : ∀ a b : Body K,
    Arbiter.cachedLoop (F.vec n) t (cs.map F.contact) (F.body a) (F.body b)
      = (F.body (Arbiter.cachedLoop n t cs a b).1, F.body (Arbiter.cachedLoop n t cs a b).2) := by
  induction cs with
  | nil => intro a b; rfl
  | cons c cs ih =>
    intro a b
    simp only [List.map_cons, Arbiter.cachedLoop, Frame.contact, Frame.vec_rotate, Frame.vec_scale, applyImpulses_frame hF]
    exact ih _ _

theorem contactStep_frame (n sv : V2 K) (u : K) (a b : Body K) (c : Contact K) :
    Arbiter.contactStep (F.vec n) (F.vec sv) u (F.body a) (F.body b) (F.contact c) =
      let t := Arbiter.contactStep n sv u a b c
      (F.body t.1, F.body t.2.1, F.contact t.2.2) := by
  have eb : ∀ x : Body K, (F.body x).vBias = F.vec x.vBias := fun _ => rfl
  have ew : ∀ x : Body K, (F.body x).wBias = x.wBias := fun _ => rfl
  simp only [Arbiter.contactStep, Frame.contact, relativeVelocity_frame hF, eb, ew, Frame.vec_perp, Frame.vec_scale, Frame.vec_add, Frame.vec_sub,
    Frame.vec_dot hF, Frame.vec_rotate, applyBiasImpulses_frame hF, applyImpulses_frame hF]

theorem impulseLoop_frame (n sv : V2 K) (u : K) (cs : List (Contact K)) : ∀ a b : Body K,
    Arbiter.impulseLoop (F.vec n) (F.vec sv) u (cs.map F.contact) (F.body a) (F.body b) =
      let t := Arbiter.impulseLoop n sv u cs a b
      (F.body t.1, F.body t.2.1, t.2.2.map F.contact) := by
  induction cs with
  | nil => intro a b; rfl
  | cons c cs ih =>
    intro a b
    simp only [List.map_cons, Arbiter.impulseLoop, contactStep_frame hF, ih]

theorem arb_applyImpulse_frame (arb : Arbiter K) (a b : Body K) :
    (F.arb arb).applyImpulse (F.body a) (F.body b) = let t := arb.applyImpulse a b; (F.body t.1, F.body t.2.1, F.arb t.2.2) := by
  simp only [Arbiter.applyImpulse, Frame.arb, impulseLoop_frame hF]

theorem arb_cached_frame (arb : Arbiter K) (a b : Body K) (t : K) :
    (F.arb arb).applyCachedImpulse (F.body a) (F.body b) t = (F.body (arb.applyCachedImpulse a b t).1, F.body (arb.applyCachedImpulse a b t).2) := by
  simp only [Arbiter.applyCachedImpulse, Frame.arb, cachedLoop_frame hF]
  split <;> rfl

/-! ## Joints -/

omit hF in
theorem spin_frame (F : Frame K) (a b : Body K) (j c : K) : spin (F.body a) (F.body b) j c = (F.body (spin a b j c).1, F.body (spin a b j c).2) := rfl

omit hF in
theorem rigid_vec_lengthSq {t : Transform K} (h : RigidTr t) (v : V2 K) : (t.applyVector v).lengthSq = v.lengthSq := by
  obtain ⟨h1, h2, h3⟩ := h
  simp only [Transform.applyVector, V2.lengthSq, V2.dot, h1, h2]
  linear_combination (v.x * v.x + v.y * v.y) * h3

theorem joint_preStep_frame (M : Mth K) (inf dt : K) (jt : Joint K) (h : Indifferent F jt) (a b : Body K) (ha : RigidTr a.tr) :
    (F.joint jt).preStep M inf (F.body a) (F.body b) dt = let t := jt.preStep M inf a b dt; (F.body t.1, F.body t.2.1, F.joint t.2.2) := by
  have ep : ∀ x : Body K, (F.body x).p = F.pt x.p := fun _ => rfl
  have et : ∀ x : Body K, (F.body x).tr = F.tr x.tr := fun _ => rfl
  have ed : b.angle + F.th - (a.angle + F.th) = b.angle - a.angle := by ring
  cases jt with
  | pin j =>
    have e : (F.pt b.p).add ((F.vec (anchorOffset b j.anchorB)).sub ((F.pt a.p).add (F.vec (anchorOffset a j.anchorA))))
        = F.vec (b.p.add ((anchorOffset b j.anchorB).sub (a.p.add (anchorOffset a j.anchorA)))) := by
      simp only [V2.add, V2.sub, Frame.vec, Frame.pt]; ext <;> ring
    simp only [Joint.preStep, Frame.joint, PinJoint.preStep, anchorOffset_frame hF, ep, e, Frame.vec_mag hF, Frame.vec_scale]
    split <;> simp only [kScalar_frame hF]
  | slide j =>
    have e0 := kScalar_frame hF a b (anchorOffset a j.anchorA) (anchorOffset b j.anchorB) V2.zero
    rw [Frame.vec_zero] at e0
    simp only [Joint.preStep, Frame.joint, SlideJoint.preStep, anchorOffset_frame hF, ep, Frame.pt_add, Frame.pt_sub, Frame.vec_mag hF, Frame.vec_unit hF, Frame.vec_neg]
    split_ifs
    · simp only [kScalar_frame hF]
    · simp only [kScalar_frame hF]
    · simp only [e0, Frame.vec_zero]
  | pivot j =>
    simp only [Joint.preStep, Frame.joint, PivotJoint.preStep, anchorOffset_frame hF, ep, Frame.pt_add, Frame.pt_sub, Frame.vec_scale, Frame.vec_clampMag hF, kTensor_frame hF]
  | groove j =>
    have hn : (a.tr.applyVector j.grooveN).lengthSq = 1 := (rigid_vec_lengthSq ha _).trans h
    have hc : ∀ q v : V2 K, (F.pt q).cross (F.vec v) = q.cross v + F.d.cross (F.vec v) := by
      intro q v
      rw [← Frame.vec_cross hF q v]; simp only [Frame.pt, Frame.vec, V2.add, V2.cross]; ring
    have hd : ∀ q v : V2 K, (F.pt q).dot (F.vec v) = q.dot v + F.d.dot (F.vec v) := by
      intro q v
      rw [← Frame.vec_dot hF q v]; simp only [Frame.pt, Frame.vec, V2.add, V2.dot]; ring
    simp only [Joint.preStep, Frame.joint, GrooveJoint.preStep, anchorOffset_frame hF, ep, et, applyVector_frame hF, apply_frame hF, Frame.pt_add, Frame.pt_sub, hc, hd,
      add_le_add_iff_right, ge_iff_le]
    have e1 : (((F.vec (a.tr.applyVector j.grooveN)).perp.scale
          (-((b.p.add (anchorOffset b j.anchorB)).cross (a.tr.applyVector j.grooveN) + F.d.cross (F.vec (a.tr.applyVector j.grooveN))))).add
        ((F.vec (a.tr.applyVector j.grooveN)).scale ((a.tr.apply j.grooveA).dot (a.tr.applyVector j.grooveN) + F.d.dot (F.vec (a.tr.applyVector j.grooveN))))).sub (F.pt a.p)
        = F.vec ((((a.tr.applyVector j.grooveN).perp.scale (-((b.p.add (anchorOffset b j.anchorB)).cross (a.tr.applyVector j.grooveN)))).add
            ((a.tr.applyVector j.grooveN).scale ((a.tr.apply j.grooveA).dot (a.tr.applyVector j.grooveN)))).sub a.p) := by
      have hn' := hn
      rw [← Frame.vec_lengthSq hF] at hn'
      generalize (b.p.add (anchorOffset b j.anchorB)).cross (a.tr.applyVector j.grooveN) = X
      generalize (a.tr.apply j.grooveA).dot (a.tr.applyVector j.grooveN) = Y
      generalize a.tr.applyVector j.grooveN = n at *
      simp only [V2.lengthSq, V2.dot] at hn'
      simp only [Frame.vec_perp, Frame.pt, V2.sub, V2.add, V2.scale, V2.cross, V2.dot, V2.perp, Frame.vec] at *
      ext
      · simp only; linear_combination F.d.x * hn'
      · simp only; linear_combination F.d.y * hn'
    rw [e1]
    split_ifs
    · simp only [Frame.pt_add, Frame.pt_sub, Frame.vec_scale, Frame.vec_clampMag hF, kTensor_frame hF]
    · simp only [Frame.pt_add, Frame.pt_sub, Frame.vec_scale, Frame.vec_clampMag hF, kTensor_frame hF]
    · simp only [Frame.pt_add, Frame.pt_sub, Frame.vec_scale, Frame.vec_clampMag hF, kTensor_frame hF]
  | gear j =>
    have e : (b.angle + F.th) * j.ratio - (a.angle + F.th) - j.phase = b.angle * j.ratio - a.angle - j.phase := by
      rcases h with h | h
      · rw [h]; ring
      · rw [h]; ring
    simp only [Joint.preStep, Frame.joint, GearJoint.preStep]
    have ea : ∀ x : Body K, (F.body x).angle = x.angle + F.th := fun _ => rfl
    have ei : ∀ x : Body K, (F.body x).iInv = x.iInv := fun _ => rfl
    simp only [ea, ei, e]
  | ratchet j =>
    have ea : ∀ x : Body K, (F.body x).angle = x.angle + F.th := fun _ => rfl
    have ei : ∀ x : Body K, (F.body x).iInv = x.iInv := fun _ => rfl
    simp only [Joint.preStep, Frame.joint, RatchetJoint.preStep, ea, ei, ed]
  | rotaryLimit j =>
    have ea : ∀ x : Body K, (F.body x).angle = x.angle + F.th := fun _ => rfl
    have ei : ∀ x : Body K, (F.body x).iInv = x.iInv := fun _ => rfl
    simp only [Joint.preStep, Frame.joint, RotaryLimitJoint.preStep, ea, ei, ed]
  | motor j => rfl
  | spring j =>
    simp only [Joint.preStep, Frame.joint, DampedSpring.preStep, anchorOffset_frame hF, ep, Frame.pt_add, Frame.pt_sub, Frame.vec_mag hF, Frame.vec_scale]
    split <;> simp only [kScalar_frame hF, Frame.vec_scale, applyImpulses_frame hF]
  | rotarySpring j =>
    have ea : ∀ x : Body K, (F.body x).angle = x.angle + F.th := fun _ => rfl
    have ei : ∀ x : Body K, (F.body x).iInv = x.iInv := fun _ => rfl
    have ed' : a.angle + F.th - (b.angle + F.th) = a.angle - b.angle := by ring
    simp only [Joint.preStep, Frame.joint, DampedRotarySpring.preStep, ea, ei, ed']
    rfl

theorem joint_cached_frame (jt : Joint K) (a b : Body K) (t : K) :
    (F.joint jt).applyCached (F.body a) (F.body b) t = (F.body (jt.applyCached a b t).1, F.body (jt.applyCached a b t).2) := by
  cases jt with
  | pin j => simp only [Joint.applyCached, Frame.joint, PinJoint.applyCached, Frame.vec_scale, applyImpulses_frame hF]
  | slide j => simp only [Joint.applyCached, Frame.joint, SlideJoint.applyCached, Frame.vec_scale, applyImpulses_frame hF]
  | pivot j => simp only [Joint.applyCached, Frame.joint, PivotJoint.applyCached, Frame.vec_scale, applyImpulses_frame hF]
  | groove j => simp only [Joint.applyCached, Frame.joint, GrooveJoint.applyCached, Frame.vec_scale, applyImpulses_frame hF]
  | _ => rfl

theorem joint_applyImpulse_frame (M : Mth K) (dt : K) (jt : Joint K) (a b : Body K) :
    (F.joint jt).applyImpulse M (F.body a) (F.body b) dt = let t := jt.applyImpulse M a b dt; (F.body t.1, F.body t.2.1, F.joint t.2.2) := by
  cases jt with
  | pin j =>
    simp only [Joint.applyImpulse, Frame.joint, PinJoint.applyImpulse, normalRelativeVelocity, relativeVelocity_frame hF, Frame.vec_dot hF, Frame.vec_scale, applyImpulses_frame hF]
  | slide j =>
    simp only [Joint.applyImpulse, Frame.joint, SlideJoint.applyImpulse, relativeVelocity_frame hF, Frame.vec_dot hF, Frame.vec_scale, applyImpulses_frame hF, Frame.vec_eq_zero hF]
    split <;> rfl
  | pivot j =>
    simp only [Joint.applyImpulse, Frame.joint, PivotJoint.applyImpulse, relativeVelocity_frame hF, Frame.vec_sub, Frame.mat_transform hF, Frame.vec_add, Frame.vec_clampMag hF, applyImpulses_frame hF]
  | groove j =>
    simp only [Joint.applyImpulse, Frame.joint, GrooveJoint.applyImpulse, GrooveJoint.grooveConstrain, relativeVelocity_frame hF, Frame.vec_sub, Frame.mat_transform hF,
      Frame.vec_add, Frame.vec_cross hF, Frame.vec_project hF]
    split <;> simp only [Frame.vec_clampMag hF, Frame.vec_sub, applyImpulses_frame hF]
  | gear j => rfl
  | ratchet j =>
    simp only [Joint.applyImpulse, Frame.joint, RatchetJoint.applyImpulse]; split <;> rfl
  | rotaryLimit j =>
    simp only [Joint.applyImpulse, Frame.joint, RotaryLimitJoint.applyImpulse]; split <;> rfl
  | motor j => rfl
  | spring j =>
    simp only [Joint.applyImpulse, Frame.joint, DampedSpring.applyImpulse, normalRelativeVelocity, relativeVelocity_frame hF, Frame.vec_dot hF, Frame.vec_scale, applyImpulses_frame hF]
  | rotarySpring j => rfl

omit hF
theorem indifferent_preStep (M : Mth K) (inf dt : K) (jt : Joint K) (h : Indifferent F jt) (a b : Body K) : Indifferent F (jt.preStep M inf a b dt).2.2 := by
  cases jt <;> exact h

theorem indifferent_applyImpulse (M : Mth K) (dt : K) (jt : Joint K) (h : Indifferent F jt) (a b : Body K) : Indifferent F (jt.applyImpulse M a b dt).2.2 := by
  cases jt with
  | slide j => simp only [Joint.applyImpulse, SlideJoint.applyImpulse]; split <;> trivial
  | ratchet j => simp only [Joint.applyImpulse, RatchetJoint.applyImpulse]; split <;> trivial
  | rotaryLimit j => simp only [Joint.applyImpulse, RotaryLimitJoint.applyImpulse]; split <;> trivial
  | _ => exact h

end helpers

/-! ## The whole solver -/

namespace Spec
/-- The frame after a time: it has moved on. -/
def Frame.after (F : Frame K) (t : K) : Frame K := { F with d := F.d.add (F.u.scale t) }

/-- A link whose item is seen from the frame. -/
def Frame.link {α : Type} (ψ : α → α) (l : Link α) : Link α := { l with it := ψ l.it }

/-- `s'` is `s` as seen from the frame, as far as the bodies of `S` are concerned. -/
structure SeenFrom (F : Frame K) (S : Nat → Prop) (s s' : SolverState K) : Prop where
  bodies : ∀ k, S k → s'.bodies k = F.body (s.bodies k)
  arbs : s'.arbs = s.arbs.map (Frame.link F.arb)
  joints : s'.joints = s.joints.map (Frame.link F.joint)

/-- The bodies of `S` are placed rigidly, and all collisions and joints are between them. -/
structure WithinDyn (F : Frame K) (S : Nat → Prop) (s : SolverState K) : Prop where
  placed : ∀ k, S k → RigidTr (s.bodies k).tr
  arbs : ∀ l ∈ s.arbs, S l.ia ∧ S l.ib
  joints : ∀ l ∈ s.joints, S l.ia ∧ S l.ib ∧ Indifferent F l.it
end Spec

theorem linkLoop_frame {α : Type} (S : Nat → Prop) (φ : Body K → Body K) (ψ : α → α) (P : Body K → Prop) (Q : α → Prop)
    (f : α → Body K → Body K → Body K × Body K × α)
    (hf : ∀ x a b, Q x → P a → P b → f (ψ x) (φ a) (φ b) = (φ (f x a b).1, φ (f x a b).2.1, ψ (f x a b).2.2))
    (hP : ∀ x a b, P a → P b → P (f x a b).1 ∧ P (f x a b).2.1) (hQ : ∀ x a b, Q x → Q (f x a b).2.2) :
    ∀ (ls : List (Link α)) (bs bs' : Nat → Body K), (∀ l ∈ ls, S l.ia ∧ S l.ib ∧ Q l.it) → (∀ k, S k → P (bs k)) →
      (∀ k, S k → bs' k = φ (bs k)) →
      (∀ k, S k → (linkLoop f (ls.map (Frame.link ψ)) bs').1 k = φ ((linkLoop f ls bs).1 k)) ∧
      (linkLoop f (ls.map (Frame.link ψ)) bs').2 = (linkLoop f ls bs).2.map (Frame.link ψ) ∧
      (∀ k, S k → P ((linkLoop f ls bs).1 k)) ∧ (∀ l ∈ (linkLoop f ls bs).2, S l.ia ∧ S l.ib ∧ Q l.it) := by
  intro ls
  induction ls with
  | nil => intro bs bs' _ h2 h3; exact ⟨h3, rfl, h2, by simp [linkLoop]⟩
  | cons l ls ih =>
    intro bs bs' h1 h2 h3
    obtain ⟨sa, sb, q⟩ := h1 l List.mem_cons_self
    have e : f (ψ l.it) (bs' l.ia) (bs' l.ib) = (φ (f l.it (bs l.ia) (bs l.ib)).1, φ (f l.it (bs l.ia) (bs l.ib)).2.1, ψ (f l.it (bs l.ia) (bs l.ib)).2.2) := by
      rw [h3 _ sa, h3 _ sb]; exact hf _ _ _ q (h2 _ sa) (h2 _ sb)
    obtain ⟨p1, p2⟩ := hP l.it _ _ (h2 _ sa) (h2 _ sb)
    have hp : ∀ k, S k → P (putPair bs l.ia l.ib (f l.it (bs l.ia) (bs l.ib)).1 (f l.it (bs l.ia) (bs l.ib)).2.1 k) := by
      intro k hk
      simp only [putPair]; split_ifs
      · exact p1
      · exact p2
      · exact h2 k hk
    have hp' : ∀ k, S k → putPair bs' l.ia l.ib (φ (f l.it (bs l.ia) (bs l.ib)).1) (φ (f l.it (bs l.ia) (bs l.ib)).2.1) k
        = φ (putPair bs l.ia l.ib (f l.it (bs l.ia) (bs l.ib)).1 (f l.it (bs l.ia) (bs l.ib)).2.1 k) := by
      intro k hk
      simp only [putPair]; split_ifs
      · rfl
      · rfl
      · exact h3 k hk
    obtain ⟨i1, i2, i3, i4⟩ := ih _ _ (fun l' hl => h1 l' (List.mem_cons_of_mem _ hl)) hp hp'
    simp only [List.map_cons, linkLoop, Frame.link, e]
    refine ⟨i1, ?_, i3, ?_⟩
    · exact congrArg (List.cons _) i2
    · intro l' hl
      rcases List.mem_cons.1 hl with rfl | hl
      · exact ⟨sa, sb, hQ _ _ _ q⟩
      · exact i4 l' hl

section
variable {F : Frame K} (hF : F.Turn) {S : Nat → Prop}
include hF

theorem frame_loops (fa : Arbiter K → Body K → Body K → Body K × Body K × Arbiter K) (fj : Joint K → Body K → Body K → Body K × Body K × Joint K)
    (ha : ∀ x a b, fa (F.arb x) (F.body a) (F.body b) = (F.body (fa x a b).1, F.body (fa x a b).2.1, F.arb (fa x a b).2.2))
    (hj : ∀ x a b, Indifferent F x → RigidTr a.tr → fj (F.joint x) (F.body a) (F.body b) = (F.body (fj x a b).1, F.body (fj x a b).2.1, F.joint (fj x a b).2.2))
    (ea : ∀ x a b, Exchange a b (fa x a b).1 (fa x a b).2.1) (ej : ∀ x a b, Exchange a b (fj x a b).1 (fj x a b).2.1)
    (hi : ∀ x a b, Indifferent F x → Indifferent F (fj x a b).2.2)
    (s s' : SolverState K) (h : SeenFrom F S s s') (hw : WithinDyn F S s) :
    SeenFrom F S (⟨(linkLoop fj s.joints (linkLoop fa s.arbs s.bodies).1).1, (linkLoop fa s.arbs s.bodies).2,
        (linkLoop fj s.joints (linkLoop fa s.arbs s.bodies).1).2⟩ : SolverState K)
      ⟨(linkLoop fj s'.joints (linkLoop fa s'.arbs s'.bodies).1).1, (linkLoop fa s'.arbs s'.bodies).2,
        (linkLoop fj s'.joints (linkLoop fa s'.arbs s'.bodies).1).2⟩ ∧
    WithinDyn F S (⟨(linkLoop fj s.joints (linkLoop fa s.arbs s.bodies).1).1, (linkLoop fa s.arbs s.bodies).2,
        (linkLoop fj s.joints (linkLoop fa s.arbs s.bodies).1).2⟩ : SolverState K) := by
  obtain ⟨h1, h2, h3⟩ := h
  obtain ⟨w1, w2, w3⟩ := hw
  have keep : ∀ {a b a' b' : Body K}, Exchange a b a' b' → RigidTr a.tr → RigidTr b.tr → RigidTr a'.tr ∧ RigidTr b'.tr := by
    intro a b a' b' e ra rb
    rw [e.sameA.masses.2.2.2.2.2.2.1, e.sameB.masses.2.2.2.2.2.2.1]; exact ⟨ra, rb⟩
  obtain ⟨a1, a2, a3, a4⟩ := linkLoop_frame S F.body F.arb (fun b => RigidTr b.tr) (fun _ => True) fa (fun x a b _ _ _ => ha x a b)
    (fun x a b pa pb => keep (ea x a b) pa pb) (fun _ _ _ _ => trivial) s.arbs s.bodies s'.bodies (fun l hl => ⟨(w2 l hl).1, (w2 l hl).2, trivial⟩) w1 h1
  obtain ⟨j1, j2, j3, j4⟩ := linkLoop_frame S F.body F.joint (fun b => RigidTr b.tr) (Indifferent F) fj (fun x a b hx pa _ => hj x a b hx pa)
    (fun x a b pa pb => keep (ej x a b) pa pb) hi s.joints (linkLoop fa s.arbs s.bodies).1 (linkLoop fa s'.arbs s'.bodies).1 w3 a3 (by rw [h2]; exact a1)
  refine ⟨⟨?_, ?_, ?_⟩, ⟨j3, fun l hl => ⟨(a4 l hl).1, (a4 l hl).2.1⟩, j4⟩⟩
  · rw [h3]; exact j1
  · rw [h2]; exact a2
  · rw [h3]; exact j2

theorem iterate_frame (M : Mth K) (dt : K) (s s' : SolverState K) (h : SeenFrom F S s s') (hw : WithinDyn F S s) :
    SeenFrom F S (s.iterate M dt) (s'.iterate M dt) ∧ WithinDyn F S (s.iterate M dt) :=
  frame_loops hF _ _ (fun x a b => arb_applyImpulse_frame hF x a b) (fun x a b hx _ => joint_applyImpulse_frame hF M dt x a b)
    (fun x a b => impulseLoop_exchange _ _ _ _ a b) (fun x a b => C38_iteration M dt x a b) (fun x a b hx => indifferent_applyImpulse M dt x hx a b) s s' h hw

/-- **C91** A solve, seen from the frame, is a solve: preparation, new velocities, warm start and any number of iterations. A moving frame is allowed if
velocities are not damped. -/
theorem C91_solve (M : Mth K) (inf slop cbias damping : K) (g : V2 K) (dyn : List Nat) (prevDT dt : K) (iterations : Nat)
    (hu : F.u = V2.zero ∨ M.pow damping dt = 1) (s s' : SolverState K) (h : SeenFrom F S s s') (hw : WithinDyn F S s) :
    SeenFrom F S (s.solve M inf slop cbias damping g dyn prevDT dt iterations) (s'.solve M inf slop cbias damping (F.vec g) dyn prevDT dt iterations) ∧
    WithinDyn F S (s.solve M inf slop cbias damping g dyn prevDT dt iterations) := by
  have h1 : SeenFrom F S (s.preStep M inf slop cbias dt) (s'.preStep M inf slop cbias dt) ∧ WithinDyn F S (s.preStep M inf slop cbias dt) :=
    frame_loops hF (fun arb a b => (a, b, arb.preStep a b dt slop (1 - M.pow cbias dt))) (fun jt a b => jt.preStep M inf a b dt)
      (fun x a b => by rw [preStep_frame hF]) (fun x a b hx ra => joint_preStep_frame hF M inf dt x hx a b ra)
      (fun x a b => Exchange.refl a b) (fun x a b => C38_preStep M inf dt x a b) (fun x a b hx => indifferent_preStep M inf dt x hx a b) s s' h hw
  have h2 : SeenFrom F S ((s.preStep M inf slop cbias dt).velocities M inf damping g dyn dt) ((s'.preStep M inf slop cbias dt).velocities M inf damping (F.vec g) dyn dt) ∧
      WithinDyn F S ((s.preStep M inf slop cbias dt).velocities M inf damping g dyn dt) := by
    obtain ⟨⟨e1, e2, e3⟩, ⟨w1, w2, w3⟩⟩ := h1
    have hv : ∀ b : Body K, (F.body b).updateVelocity inf (F.vec g) (M.pow damping dt) dt = F.body (b.updateVelocity inf g (M.pow damping dt) dt) := by
      intro b
      have et : (F.body b).type inf = b.type inf := rfl
      unfold Body.updateVelocity
      rw [et]
      by_cases hk : b.type inf = .kinematic
      · rw [if_pos hk, if_pos hk]
      · rw [if_neg hk, if_neg hk]
        simp only [Frame.body, Frame.vec, Frame.pt, V2.add, V2.scale, V2.zero]
        simp only [Body.mk.injEq, V2.mk.injEq, true_and, and_true]
        rcases hu with hu | hu
        · rw [V2.ext_iff] at hu
          simp only [V2.zero] at hu
          rw [hu.1, hu.2]
          refine ⟨⟨by ring, by ring⟩, ⟨by ring, by ring⟩⟩
        · rw [hu]
          refine ⟨⟨by ring, by ring⟩, ⟨by ring, by ring⟩⟩
    refine ⟨⟨?_, e2, e3⟩, ⟨?_, w2, w3⟩⟩
    · intro k hk
      simp only [SolverState.velocities]
      split
      · rw [e1 k hk]; exact hv _
      · exact e1 k hk
    · intro k hk
      simp only [SolverState.velocities]
      split
      · have : ∀ b : Body K, (b.updateVelocity inf g (M.pow damping dt) dt).tr = b.tr := by
          intro b; unfold Body.updateVelocity; split <;> rfl
        rw [this]; exact w1 k hk
      · exact w1 k hk
  have h3 := frame_loops hF (fun arb a b => let t := arb.applyCachedImpulse a b (if prevDT ≠ 0 then dt / prevDT else 0); (t.1, t.2, arb))
    (fun jt a b => let t := jt.applyCached a b (if prevDT ≠ 0 then dt / prevDT else 0); (t.1, t.2, jt))
    (fun x a b => by simp only [arb_cached_frame hF]) (fun x a b hx _ => by simp only [joint_cached_frame hF])
    (fun x a b => by
      simp only [Arbiter.applyCachedImpulse]; split
      · exact Exchange.refl a b
      · exact cachedLoop_exchange _ _ _ a b)
    (fun x a b => C38_cached x _ a b) (fun x a b hx => hx) _ _ h2.1 h2.2
  have : ∀ n (t t' : SolverState K), SeenFrom F S t t' → WithinDyn F S t →
      SeenFrom F S ((SolverState.iterate M dt)^[n] t) ((SolverState.iterate M dt)^[n] t') ∧ WithinDyn F S ((SolverState.iterate M dt)^[n] t) := by
    intro n
    induction n with
    | zero => intro t t' ht hw; exact ⟨ht, hw⟩
    | succ n ih =>
      intro t t' ht hw
      rw [Function.iterate_succ_apply, Function.iterate_succ_apply]
      obtain ⟨q1, q2⟩ := iterate_frame hF M dt t t' ht hw
      exact ih _ _ q1 q2
  exact this iterations _ _ h3.1 h3.2

end

theorem within_after {F : Frame K} {S : Nat → Prop} {s : SolverState K} (t : K) (h : WithinDyn F S s) : WithinDyn (F.after t) S s :=
  ⟨h.placed, h.arbs, fun l hl => by
    obtain ⟨h1, h2, h3⟩ := h.joints l hl
    refine ⟨h1, h2, ?_⟩
    generalize l.it = x at *
    cases x <;> exact h3⟩

theorem joint_after (F : Frame K) (t : K) : (F.after t).joint = F.joint := by
  funext x; cases x <;> rfl

theorem positions_frame {M : Mth K} (hM : M.Lawful) {F : Frame K} {S : Nat → Prop}
    (hth : ∀ x, M.cos (x + F.th) = F.r.x * M.cos x - F.r.y * M.sin x ∧ M.sin (x + F.th) = F.r.y * M.cos x + F.r.x * M.sin x)
    (dyn : List Nat) (dt : K) (hu : F.u = V2.zero ∨ ∀ k, S k → k ∈ dyn) (s s' : SolverState K) (h : SeenFrom F S s s') (hw : WithinDyn F S s) :
    SeenFrom (F.after dt) S (s.positions M dyn dt) (s'.positions M dyn dt) ∧ WithinDyn (F.after dt) S (s.positions M dyn dt) := by
  obtain ⟨e1, e2, e3⟩ := h
  have hb : ∀ b : Body K, (F.body b).updatePosition M dt = (F.after dt).body (b.updatePosition M dt) := by
    intro b
    have ea : b.angle + F.th + (b.w + b.wBias) * dt = b.angle + (b.w + b.wBias) * dt + F.th := by ring
    obtain ⟨hc, hs⟩ := hth (b.angle + (b.w + b.wBias) * dt)
    simp only [Body.updatePosition, Body.setTransform, Body.mkTransform, Frame.body, ea, hc, hs, Transform.transpose]
    simp only [Frame.tr, Frame.after, Frame.pt, Frame.vec, V2.add, V2.scale, V2.zero]
    simp only [Body.mk.injEq, V2.mk.injEq, Transform.mk.injEq, true_and, and_true]
    refine ⟨⟨?_, ?_⟩, ⟨?_, ?_, ?_, ?_⟩, ?_, ?_⟩ <;> ring
  have hst : F.u = V2.zero → F.after dt = F := by
    intro e
    have hx : F.u.x = 0 := by rw [e]; rfl
    have hy : F.u.y = 0 := by rw [e]; rfl
    simp only [Frame.after, V2.scale, V2.add, hx, hy, zero_mul, add_zero]
  refine ⟨⟨?_, e2, ?_⟩, within_after dt ⟨?_, hw.arbs, hw.joints⟩⟩
  · intro k hk
    simp only [SolverState.positions]
    split
    · rw [e1 k hk]; exact hb _
    · rename_i hn
      rcases hu with hu | hu
      · rw [hst hu]; exact e1 k hk
      · exact absurd (hu k hk) hn
  · rw [joint_after]; exact e3
  · intro k hk
    simp only [SolverState.positions]
    split
    · simp only [Body.updatePosition, Body.setTransform, Body.mkTransform, Transform.transpose, RigidTr]
      refine ⟨trivial, trivial, ?_⟩
      have := hM.cos_sin ((s.bodies k).angle + ((s.bodies k).w + (s.bodies k).wBias) * dt)
      rw [pow_two, pow_two] at this
      exact this
    · exact hw.placed k hk

/-- **C91** Steps, seen from a frame, are steps: for any number of steps, any collisions and any joints. The frame may be displaced and turned; it may
also move with a constant velocity, if velocities are not damped and all bodies concerned move. -/
theorem C91_steps {M : Mth K} (hM : M.Lawful) (par : Params K) {F : Frame K} (hF : F.Turn) {S : Nat → Prop}
    (hth : ∀ x, M.cos (x + F.th) = F.r.x * M.cos x - F.r.y * M.sin x ∧ M.sin (x + F.th) = F.r.y * M.cos x + F.r.x * M.sin x)
    (ins : List (StepIn K)) :
    (∀ i ∈ ins, ∀ l ∈ i.arbs, S l.ia ∧ S l.ib) →
    (∀ i ∈ ins, F.u = V2.zero ∨ (M.pow par.damping i.dt = 1 ∧ ∀ k, S k → k ∈ i.dyn)) →
    ∀ (prevDT : K) (s s' : SolverState K), SeenFrom F S s s' → WithinDyn F S s →
      SeenFrom (F.after (ins.map (·.dt)).sum) S (s.steps M par ins prevDT)
        (s'.steps M { par with gravity := F.vec par.gravity } (ins.map fun i => { i with arbs := i.arbs.map (Frame.link F.arb) }) prevDT) := by
  induction ins generalizing F with
  | nil =>
    intro _ _ prevDT s s' h _
    have : F.after 0 = F := by simp [Frame.after, V2.scale, V2.add]
    simpa [SolverState.steps, this] using h
  | cons i ins ih =>
    intro ha hu prevDT s s' h hw
    simp only [List.map_cons, List.sum_cons, SolverState.steps]
    have step : SeenFrom (F.after i.dt) S (s.step M par prevDT i)
        (s'.step M { par with gravity := F.vec par.gravity } prevDT { i with arbs := i.arbs.map (Frame.link F.arb) }) ∧
        WithinDyn (F.after i.dt) S (s.step M par prevDT i) := by
      unfold SolverState.step
      by_cases h0 : i.dt = 0
      · have e : F.after 0 = F := by simp [Frame.after, V2.scale, V2.add]
        rw [if_pos h0]
        simp only [h0, if_true]
        rw [e]; exact ⟨h, hw⟩
      · rw [if_neg h0]
        simp only [h0, if_false]
        have hu0 := hu i List.mem_cons_self
        obtain ⟨⟨p1, p2, p3⟩, ⟨q1, q2, q3⟩⟩ := positions_frame hM hth i.dyn i.dt (hu0.imp id (·.2)) s s' h hw
        have hF' : (F.after i.dt).Turn := hF
        exact C91_solve hF' M par.inf par.slop par.cbias par.damping par.gravity i.dyn prevDT i.dt par.iterations (hu0.imp id (·.1))
          { s.positions M i.dyn i.dt with arbs := i.arbs } { s'.positions M i.dyn i.dt with arbs := i.arbs.map (Frame.link F.arb) }
          ⟨p1, rfl, p3⟩ ⟨q1, ha i List.mem_cons_self, q3⟩
    have := ih (F := F.after i.dt) hF hth (fun j hj => ha j (List.mem_cons_of_mem _ hj)) (fun j hj => hu j (List.mem_cons_of_mem _ hj))
      (if i.dt = 0 then prevDT else i.dt) _ _ step.1 step.2
    have e : (F.after i.dt).after (ins.map (·.dt)).sum = F.after (i.dt + (ins.map (·.dt)).sum) := by
      simp only [Frame.after, V2.add, V2.scale, Frame.mk.injEq, V2.mk.injEq, true_and, and_true]
      exact ⟨by ring, by ring⟩
    rw [e] at this
    exact this

/-- **C91** Over the real numbers every angle, displacement and velocity gives such a frame. -/
theorem C91_frames (th : ℝ) (d u : V2 ℝ) :
    (⟨⟨Real.cos th, Real.sin th⟩, th, d, u⟩ : Frame ℝ).Turn ∧
    ∀ x, realMth.cos (x + th) = Real.cos th * realMth.cos x - Real.sin th * realMth.sin x ∧
      realMth.sin (x + th) = Real.sin th * realMth.cos x + Real.cos th * realMth.sin x := by
  refine ⟨?_, fun x => ⟨?_, ?_⟩⟩
  · have := Real.cos_sq_add_sin_sq th
    simp only [Frame.Turn]; linarith [this, sq (Real.cos th), sq (Real.sin th)]
  · show Real.cos (x + th) = _ * Real.cos x - _ * Real.sin x
    rw [Real.cos_add]; ring
  · show Real.sin (x + th) = _ * Real.cos x + _ * Real.sin x
    rw [Real.sin_add]; ring

/-- **C91** A gear whose ratio is not one is not indifferent to turning everything: it drives the bodies towards absolute angles. -/
theorem C91_gear : ∃ (F : Frame ℚ) (j : GearJoint ℚ) (a b : Body ℚ), F.Turn ∧ F.th ≠ 0 ∧
    (j.preStep toyMth (F.body a) (F.body b) 1).bias ≠ (j.preStep toyMth a b 1).bias := by
  refine ⟨⟨⟨1, 0⟩, 1, V2.zero, V2.zero⟩, ⟨⟨10, 0, 10⟩, 0, 2, 1/2, 1, 0, 0⟩, exBlock, exBlock, ?_, ?_, ?_⟩
  · unfold Frame.Turn; decide +kernel
  · decide +kernel
  · decide +kernel

/-! ## Examples -/

/-- A quarter turn, a displacement, and a velocity. -/
def exFrame : Frame ℚ := ⟨⟨0, 1⟩, 0, ⟨3, 4⟩, ⟨5, 6⟩⟩

example : exFrame.Turn ∧ WithinDyn exFrame (· < 3) exSpace ∧
    SeenFrom exFrame (· < 3) exSpace ⟨exFrame.body ∘ exSpace.bodies, exSpace.arbs.map (Frame.link exFrame.arb), exSpace.joints.map (Frame.link exFrame.joint)⟩ ∧
    (exFrame.body (exSpace.bodies 0)).v = ⟨6, 7⟩ := by
  refine ⟨by unfold Frame.Turn; decide +kernel, ⟨?_, ?_, ?_⟩, ⟨fun _ _ => rfl, rfl, rfl⟩, by decide +kernel⟩
  · intro k _
    simp only [exSpace]; split <;> (unfold RigidTr; decide +kernel)
  · intro l hl
    simp only [exSpace, List.mem_singleton] at hl
    subst hl; decide
  · intro l hl
    simp only [exSpace, List.mem_singleton] at hl
    subst hl; exact ⟨by decide, by decide, trivial⟩

end Cm
