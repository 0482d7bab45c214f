import Verif.Props.Driven
import Mathlib.Analysis.Calculus.Deriv.MeanValue
import Mathlib.Analysis.SpecialFunctions.Trigonometric.Deriv
import Mathlib.Analysis.SpecialFunctions.Trigonometric.Bounds
/-! # C133: a hinge holds -/
set_option linter.unusedSectionVars false
set_option linter.unusedSimpArgs false
set_option linter.unusedVariables false

namespace Cm
open Spec
variable {K : Type} [Field K] [LinearOrder K] [IsStrictOrderedRing K]

namespace Spec
/-- Where the point `d` of a body is, seen from its centre of gravity, when the body is turned by `θ`. -/
def armAt (M : Mth K) (θ : K) (d : V2 K) : V2 K := ⟨M.cos θ * d.x - M.sin θ * d.y, M.sin θ * d.x + M.cos θ * d.y⟩

/-- Where the point `anchor` of the body is in the world. -/
def spotOf (M : Mth K) (b : Body K) (anchor : V2 K) : V2 K := b.p.add (armAt M b.angle (anchor.sub b.cog))

/-- How far the two points are apart that a hinge holds together. -/
def openness (M : Mth K) (ia ib : Nat) (ca cb : V2 K) (w : World K) : V2 K := (spotOf M (w.bodies ib) cb).sub (spotOf M (w.bodies ia) ca)

/-- How fast they come apart. -/
def opening (M : Mth K) (ia ib : Nat) (ca cb : V2 K) (w : World K) : V2 K :=
  relVel (w.bodies ia) (w.bodies ib) (armAt M (w.bodies ia).angle (ca.sub (w.bodies ia).cog)) (armAt M (w.bodies ib).angle (cb.sub (w.bodies ib).cog))

/-- A point moves along an arc when its body turns by `φ`, not along the tangent: the difference. -/
def swerve (M : Mth K) (θ φ : K) (d : V2 K) : V2 K :=
  ⟨(armAt M (θ + φ) d).x - (armAt M θ d).x + φ * (armAt M θ d).y, (armAt M (θ + φ) d).y - (armAt M θ d).y - φ * (armAt M θ d).x⟩

/-- The body `k` is moved by the step, or it is fixed. -/
def Conveyed (t : Tick K) (w : World K) (k : Nat) : Prop := k ∈ t.dyn ∨ (w.bodies k).v = V2.zero ∧ (w.bodies k).w = 0

/-- The step from `w` to `w'` has the length `dt`, moves the bodies `ia` and `ib`, and nothing but the joints between them acts on them. -/
structure Swings (sc : Scene K) (dt : K) (ia ib : Nat) (w : World K) (t : Tick K) (w' : World K) : Prop where
  length : t.dt = dt
  borne : Conveyed t w ia ∧ Conveyed t w ib
  free : Unaffected sc ia ib w w'

/-- The body's transform is that of its place, and no contact pushes it out of another. -/
def Seated (M : Mth K) (b : Body K) : Prop := Placed M b ∧ b.vBias = V2.zero ∧ b.wBias = 0

/-- The bodies are joined by the hinge. -/
structure Hinged (M : Mth K) (ia ib : Nat) (g : PivotJoint K) (w : World K) : Prop where
  joint : ∃ g', JoinedBy w ia ib (.pivot g') ∧ g'.toJointCfg = g.toJointCfg ∧ g'.anchorA = g.anchorA ∧ g'.anchorB = g.anchorB
  settled : Seated M (w.bodies ia) ∧ Seated M (w.bodies ib)
  movable : Movable (w.bodies ia) (w.bodies ib)

/-- The hinge was not stretched to its greatest force. -/
def HoldsOut (dt : K) (ia ib : Nat) (w : World K) : Prop := ∀ g', JoinedBy w ia ib (.pivot g') → g'.jAcc.lengthSq < (g'.maxForce * dt) * (g'.maxForce * dt)
end Spec

/-! ## The solver -/

/-- Nothing but speeds and forces differ. -/
def Kin (A a : Body K) : Prop :=
  a.p = A.p ∧ a.tr = A.tr ∧ a.cog = A.cog ∧ a.angle = A.angle ∧ a.mInv = A.mInv ∧ a.iInv = A.iInv ∧ a.vBias = A.vBias ∧ a.wBias = A.wBias

theorem kin_refl (a : Body K) : Kin a a := ⟨rfl, rfl, rfl, rfl, rfl, rfl, rfl, rfl⟩

theorem kin_trans {a b c : Body K} (h : Kin a b) (h' : Kin b c) : Kin a c := by
  obtain ⟨h1, h2, h3, h4, h5, h6, h7, h8⟩ := h
  obtain ⟨k1, k2, k3, k4, k5, k6, k7, k8⟩ := h'
  exact ⟨k1.trans h1, k2.trans h2, k3.trans h3, k4.trans h4, k5.trans h5, k6.trans h6, k7.trans h7, k8.trans h8⟩

theorem kin_push (a b : Body K) (r1 r2 j : V2 K) : Kin a (applyImpulses a b r1 r2 j).1 ∧ Kin b (applyImpulses a b r1 r2 j).2 :=
  ⟨⟨rfl, rfl, rfl, rfl, rfl, rfl, rfl, rfl⟩, rfl, rfl, rfl, rfl, rfl, rfl, rfl, rfl⟩

theorem kin_readied (M : Mth K) (par : Params K) (dt : K) (dyn : List Nat) (k : Nat) (b : Body K) : Kin (placed M dt dyn k b) (readied M par dt dyn k b) := by
  unfold readied
  split
  · unfold Body.updateVelocity
    split <;> exact ⟨rfl, rfl, rfl, rfl, rfl, rfl, rfl, rfl⟩
  · exact kin_refl _

theorem kin_movable {A B a b : Body K} (h : Movable A B) (ha : Kin A a) (hb : Kin B b) : Movable a b := by
  obtain ⟨-, -, -, -, h5, h6, -⟩ := ha
  obtain ⟨-, -, -, -, k5, k6, -⟩ := hb
  unfold Movable at *
  rw [h5, h6, k5, k6]
  exact h

theorem kin_offset {A a : Body K} (h : Kin A a) (c : V2 K) : anchorOffset a c = anchorOffset A c := by
  obtain ⟨-, h2, h3, -⟩ := h
  unfold anchorOffset
  rw [h2, h3]

theorem kin_pivot (M : Mth K) {A B a b : Body K} (ha : Kin A a) (hb : Kin B b) (g : PivotJoint K) (dt : K) : g.preStep M a b dt = g.preStep M A B dt := by
  unfold PivotJoint.preStep
  dsimp only
  rw [kin_offset ha, kin_offset hb, ha.1, hb.1]
  unfold kTensor
  obtain ⟨-, -, -, -, h5, h6, -⟩ := ha
  obtain ⟨-, -, -, -, k5, k6, -⟩ := hb
  rw [h5, h6, k5, k6]

/-- What the solver makes of the hinge. -/
theorem hinge_solve {M : Mth K} (hM : M.Lawful) {par : Params K} (hn : par.iterations ≠ 0) (prevDT dt : K) (dyn : List Nat) (ia ib : Nat) (a b : Body K) (g : PivotJoint K) (hm : Movable a b) :
    let A := placed M dt dyn ia a
    let B := placed M dt dyn ib b
    let r := jointSolve M par prevDT dt dyn ia ib a b (.pivot g)
    Kin A r.1 ∧ Kin B r.2.1 ∧ ∃ j, r.2.2 = .pivot { g.preStep M A B dt with jAcc := j } ∧
      (j.lengthSq < (g.maxForce * dt) * (g.maxForce * dt) →
        relVel r.1 r.2.1 (anchorOffset A g.anchorA) (anchorOffset B g.anchorB) = ((Spec.gap A B g.anchorA g.anchorB).scale (-(1 - M.pow g.errorBias dt) / dt)).clampMag M g.maxBias) := by
  intro A B r
  have hmAB : Movable A B := by
    have hA : A.mInv = a.mInv ∧ A.iInv = a.iInv := by show (placed M dt dyn ia a).mInv = _ ∧ (placed M dt dyn ia a).iInv = _; unfold placed; split <;> exact ⟨rfl, rfl⟩
    have hB : B.mInv = b.mInv ∧ B.iInv = b.iInv := by show (placed M dt dyn ib b).mInv = _ ∧ (placed M dt dyn ib b).iInv = _; unfold placed; split <;> exact ⟨rfl, rfl⟩
    unfold Movable
    rw [hA.1, hA.2, hB.1, hB.2]
    exact hm
  generalize hco : (if prevDT ≠ 0 then dt / prevDT else 0) = co
  generalize hG : g.preStep M A B dt = G
  have hr : r = (fun x : Body K × Body K × Joint K => x.2.2.applyImpulse M x.1 x.2.1 dt)^[par.iterations]
      ((applyImpulses (readied M par dt dyn ia a) (readied M par dt dyn ib b) G.r1 G.r2 (G.jAcc.scale co)).1,
        (applyImpulses (readied M par dt dyn ia a) (readied M par dt dyn ib b) G.r1 G.r2 (G.jAcc.scale co)).2, .pivot G) := by
    rw [← hG, ← hco]; rfl
  have k0 := kin_push (readied M par dt dyn ia a) (readied M par dt dyn ib b) G.r1 G.r2 (G.jAcc.scale co)
  have ka := kin_trans (kin_readied M par dt dyn ia a) k0.1
  have kb := kin_trans (kin_readied M par dt dyn ib b) k0.2
  generalize applyImpulses (readied M par dt dyn ia a) (readied M par dt dyn ib b) G.r1 G.r2 (G.jAcc.scale co) = ab at hr ka kb
  have hit : ∀ (n : Nat) (x : Body K × Body K × Joint K), Kin A x.1 → Kin B x.2.1 → (∃ j, x.2.2 = .pivot { G with jAcc := j }) →
      let y := (fun x : Body K × Body K × Joint K => x.2.2.applyImpulse M x.1 x.2.1 dt)^[n] x
      Kin A y.1 ∧ Kin B y.2.1 ∧ ∃ j, y.2.2 = .pivot { G with jAcc := j } := by
    intro n
    induction n with
    | zero => intro x h1 h2 h3; exact ⟨h1, h2, h3⟩
    | succ n ih =>
      rintro ⟨a', b', jt⟩ h1 h2 ⟨j, rfl : jt = _⟩
      rw [Function.iterate_succ_apply]
      refine ih _ ?_ ?_ ?_
      · exact kin_trans h1 (kin_push a' b' G.r1 G.r2 _).1
      · exact kin_trans h2 (kin_push a' b' G.r1 G.r2 _).2
      · exact ⟨_, rfl⟩
  obtain ⟨n, hn'⟩ := Nat.exists_eq_succ_of_ne_zero hn
  rw [hn', Function.iterate_succ_apply'] at hr
  obtain ⟨i1, i2, j, i3⟩ := hit n (ab.1, ab.2, .pivot G) ka kb ⟨G.jAcc, rfl⟩
  generalize (fun x : Body K × Body K × Joint K => x.2.2.applyImpulse M x.1 x.2.1 dt)^[n] (ab.1, ab.2, .pivot G) = y at hr i1 i2 i3
  obtain ⟨a', b', jt⟩ := y
  dsimp only at hr i1 i2 i3
  subst i3
  have hc := C39_pivot hM dt { g with jAcc := j } a' b' a' b' rfl rfl (kin_movable hmAB i1 i2)
  have hg : ({ g with jAcc := j } : PivotJoint K).preStep M a' b' dt = { G with jAcc := j } := by
    rw [kin_pivot M i1 i2, ← hG]; rfl
  dsimp only at hc
  rw [hg] at hc
  have hgap : Spec.gap a' b' g.anchorA g.anchorB = Spec.gap A B g.anchorA g.anchorB := by
    unfold Spec.gap
    rw [kin_offset i1, kin_offset i2, i1.1, i2.1]
  rw [kin_offset i1, kin_offset i2, hgap] at hc
  rw [hr]
  refine ⟨kin_trans i1 (kin_push a' b' G.r1 G.r2 _).1, kin_trans i2 (kin_push a' b' G.r1 G.r2 _).2, _, rfl, fun hlim => ?_⟩
  exact hc hlim

/-! ## In the whole simulation -/

theorem offset_arm {M : Mth K} {b : Body K} (h : Placed M b) (c : V2 K) : anchorOffset b c = armAt M b.angle (c.sub b.cog) := by
  unfold anchorOffset armAt
  rw [show b.tr = _ from h]
  refine V2.ext ?_ ?_ <;> simp only [Body.mkTransform, Transform.transpose, Transform.applyVector] <;> ring

/-- The body moves on with its speed. -/
theorem placed_spot {M : Mth K} {dt : K} {t : Tick K} {w : World K} {k : Nat} (hc : Conveyed t w k) (hs : Seated M (w.bodies k)) :
    let A := placed M dt t.dyn k (w.bodies k)
    Seated M A ∧ A.p = (w.bodies k).p.add ((w.bodies k).v.scale dt) ∧ A.angle = (w.bodies k).angle + (w.bodies k).w * dt ∧ A.cog = (w.bodies k).cog ∧ A.mInv = (w.bodies k).mInv ∧ A.iInv = (w.bodies k).iInv := by
  obtain ⟨h1, h2, h3⟩ := hs
  intro A
  by_cases hk : k ∈ t.dyn
  · have e : A = (w.bodies k).updatePosition M dt := by show placed _ _ _ _ _ = _; unfold placed; rw [if_pos hk]
    rw [e]
    refine ⟨⟨?_, rfl, rfl⟩, ?_, ?_, rfl, rfl, rfl⟩
    · rfl
    · show (w.bodies k).p.add (((w.bodies k).v.add (w.bodies k).vBias).scale dt) = _
      rw [h2]
      refine V2.ext ?_ ?_ <;> simp [V2.add, V2.scale, V2.zero]
    · show (w.bodies k).angle + ((w.bodies k).w + (w.bodies k).wBias) * dt = _
      rw [h3, add_zero]
  · have e : A = w.bodies k := by show placed _ _ _ _ _ = _; unfold placed; rw [if_neg hk]
    obtain ⟨v0, w0⟩ := hc.resolve_left hk
    rw [e, v0, w0]
    refine ⟨⟨h1, h2, h3⟩, ?_, by ring, rfl, rfl, rfl⟩
    refine V2.ext ?_ ?_ <;> simp [V2.add, V2.scale, V2.zero]

/-- **C133.** One step with a hinge: the points it holds together move on with their speeds and swerve along their arcs; and unless it is stretched to its greatest force, the hinge leaves them
exactly the speed with which it wants to close. -/
theorem C133_step {M : Mth K} (hM : M.Lawful) {sc : Scene K} (hn : sc.par.iterations ≠ 0) {dt : K} (h0 : 0 < dt) {ia ib : Nat} {g : PivotJoint K} {w : World K} {t : Tick K} (hw : Hinged M ia ib g w)
    (h : Swings sc dt ia ib w t (w.step M sc t)) :
    let w' := w.step M sc t
    let ca := g.anchorA
    let cb := g.anchorB
    Hinged M ia ib g w' ∧
    openness M ia ib ca cb w' = ((openness M ia ib ca cb w).add ((opening M ia ib ca cb w).scale dt)).add
      ((swerve M (w.bodies ib).angle ((w.bodies ib).w * dt) (cb.sub (w.bodies ib).cog)).sub (swerve M (w.bodies ia).angle ((w.bodies ia).w * dt) (ca.sub (w.bodies ia).cog))) ∧
    ((w'.bodies ia).cog = (w.bodies ia).cog ∧ (w'.bodies ib).cog = (w.bodies ib).cog) ∧
    (HoldsOut dt ia ib w' → opening M ia ib ca cb w' = ((openness M ia ib ca cb w').scale (-(1 - M.pow g.errorBias dt) / dt)).clampMag M g.maxBias) := by
  intro w' ca cb
  obtain rfl := h.length
  obtain ⟨⟨g1, j1, c1, c2, c3⟩, ⟨sa, sb⟩, hm⟩ := hw
  have f1 : g1.maxForce = g.maxForce := congrArg JointCfg.maxForce c1
  have f2 : g1.maxBias = g.maxBias := congrArg JointCfg.maxBias c1
  have f3 : g1.errorBias = g.errorBias := congrArg JointCfg.errorBias c1
  have hmov : ¬ (Immovable (w.bodies ia) ∧ Immovable (w.bodies ib)) := by
    rintro ⟨i1, i2⟩
    have := hm.2.2.2.2
    rw [i1.1, i2.1] at this
    simp at this
  obtain ⟨ea, eb, ej⟩ := only_joint h0.ne' j1 h.free hmov
  obtain ⟨ka, kb, j, r1, r2⟩ := hinge_solve hM hn w.prevDT t.dt t.dyn ia ib (w.bodies ia) (w.bodies ib) g1 hm
  rw [r1] at ej
  rw [← ea, ← eb] at r2
  rw [← ea] at ka
  rw [← eb] at kb
  obtain ⟨pa, pa1, pa2, pa3, pa4, pa5⟩ := placed_spot (dt := t.dt) h.borne.1 sa
  obtain ⟨pb, pb1, pb2, pb3, pb4, pb5⟩ := placed_spot (dt := t.dt) h.borne.2 sb
  have hSa : Seated M (w'.bodies ia) := by
    obtain ⟨k1, k2, k3, k4, -, -, k7, k8⟩ := ka
    refine ⟨?_, k7.trans pa.2.1, k8.trans pa.2.2⟩
    show _ = _
    rw [k2, k1, k3, k4]; exact pa.1
  have hSb : Seated M (w'.bodies ib) := by
    obtain ⟨k1, k2, k3, k4, -, -, k7, k8⟩ := kb
    refine ⟨?_, k7.trans pb.2.1, k8.trans pb.2.2⟩
    show _ = _
    rw [k2, k1, k3, k4]; exact pb.1
  refine ⟨⟨⟨_, ej, c1, c2, c3⟩, ⟨hSa, hSb⟩, ?_⟩, ?_, ⟨ka.2.2.1.trans pa3, kb.2.2.1.trans pb3⟩, fun hs => ?_⟩
  · refine kin_movable ?_ ka kb
    unfold Movable
    rw [pa4, pa5, pb4, pb5]
    exact hm
  · have qa : (w'.bodies ia).angle = (w.bodies ia).angle + (w.bodies ia).w * t.dt := ka.2.2.2.1.trans pa2
    have qb : (w'.bodies ib).angle = (w.bodies ib).angle + (w.bodies ib).w * t.dt := kb.2.2.2.1.trans pb2
    unfold openness spotOf
    rw [ka.1, kb.1, pa1, pb1, ka.2.2.1, kb.2.2.1, pa3, pb3, qa, qb]
    unfold opening swerve relVel pointVel
    refine V2.ext ?_ ?_ <;> simp only [V2.add, V2.sub, V2.scale] <;> ring
  · have hl := hs _ ej
    have := r2 hl
    rw [← kin_offset ka, ← kin_offset kb, offset_arm hSa.1, offset_arm hSb.1, c2, c3, f2, f3] at this
    unfold opening
    rw [this]
    congr 2
    unfold Spec.gap openness spotOf
    rw [← kin_offset ka, ← kin_offset kb, offset_arm hSa.1, offset_arm hSb.1, ka.1, kb.1]

/-! ## Many steps -/

theorem mag_add_le {M : Mth K} (hM : M.Lawful) (u v : V2 K) : (u.add v).mag M ≤ u.mag M + v.mag M := by
  refine mag_le hM _ _ (add_nonneg (mag_nonneg hM u) (mag_nonneg hM v)) ?_
  have h1 := mag_sq hM u
  have h2 := mag_sq hM v
  have h3 := dot_le_mag hM u v
  have e : (u.add v).lengthSq = u.lengthSq + v.lengthSq + 2 * u.dot v := by
    simp only [V2.lengthSq, V2.dot, V2.add]; ring
  rw [e, ← h1, ← h2]
  nlinarith

theorem mag_scale_le {M : Mth K} (hM : M.Lawful) {c : K} (hc : 0 ≤ c) (v : V2 K) : (v.scale c).mag M ≤ c * v.mag M := by
  refine mag_le hM _ _ (mul_nonneg hc (mag_nonneg hM v)) ?_
  have h := mag_sq hM v
  have e : (v.scale c).lengthSq = c * c * v.lengthSq := by
    simp only [V2.lengthSq, V2.dot, V2.scale]; ring
  rw [e, ← h]
  exact le_of_eq (by ring)

theorem unclamped {M : Mth K} (hM : M.Lawful) {c dt m : K} (h0 : 0 < dt) (hc1 : c ≤ 1) (e : V2 K) (h : (1 - c) * e.mag M ≤ m * dt) :
    (e.scale (-(1 - c) / dt)).clampMag M m = e.scale (-(1 - c) / dt) := by
  unfold V2.clampMag
  rw [if_neg]
  rw [not_lt]
  have h1 := mag_sq hM e
  have h2 : 0 ≤ (1 - c) * e.mag M / dt := div_nonneg (mul_nonneg (by linarith) (mag_nonneg hM e)) h0.le
  have h3 : (1 - c) * e.mag M / dt ≤ m := by rw [div_le_iff₀ h0]; exact h
  have e1 : (e.scale (-(1 - c) / dt)).dot (e.scale (-(1 - c) / dt)) = ((1 - c) * e.mag M / dt) * ((1 - c) * e.mag M / dt) := by
    have : (e.scale (-(1 - c) / dt)).dot (e.scale (-(1 - c) / dt)) = ((1 - c) / dt) * ((1 - c) / dt) * e.lengthSq := by
      simp only [V2.lengthSq, V2.dot, V2.scale]; ring
    rw [this, ← h1]; ring
  rw [e1]
  exact mul_self_le_mul_self h2 h3

namespace Spec
/-- What the arcs add to the opening of the hinge in the step from `w`. -/
def swerving (M : Mth K) (dt : K) (ia ib : Nat) (ca cb : V2 K) (w : World K) : V2 K :=
  (swerve M (w.bodies ib).angle ((w.bodies ib).w * dt) (cb.sub (w.bodies ib).cog)).sub (swerve M (w.bodies ia).angle ((w.bodies ia).w * dt) (ca.sub (w.bodies ia).cog))

/-- The sum of the first `n` powers. -/
def powers (c : K) : Nat → K
  | 0 => 0
  | n + 1 => c * powers c n + 1
end Spec

theorem powers_nonneg {c : K} (hc : 0 ≤ c) (n : Nat) : 0 ≤ powers c n := by
  induction n with
  | zero => exact le_rfl
  | succ n ih => rw [powers]; exact add_nonneg (mul_nonneg hc ih) zero_le_one

theorem powers_closed (c : K) (n : Nat) : (1 - c) * powers c n = 1 - c ^ n := by
  induction n with
  | zero => simp [powers]
  | succ n ih =>
    rw [powers, pow_succ]
    linear_combination c * ih

/-- **C133.** A hinge that is strong enough holds, whatever forces and speeds the bodies have: its opening shrinks in each step to the part `errorBias ^ dt` of itself, but for what the arcs add in which the
points move. So it stays below a bound for ever. -/
theorem C133_hinge {M : Mth K} (hM : M.Lawful) {sc : Scene K} (hn : sc.par.iterations ≠ 0) {dt : K} (h0 : 0 < dt) {ia ib : Nat} {g : PivotJoint K} (he : 0 ≤ g.errorBias ∧ g.errorBias ≤ 1)
    {w : World K} (hw : Hinged M ia ib g w) (S : K) (hS : 0 ≤ S) (t₀ : Tick K) (ticks : List (Tick K))
    (h : EveryStep M sc (fun w t w' => Swings sc dt ia ib w t w' ∧ HoldsOut dt ia ib w' ∧ (swerving M dt ia ib g.anchorA g.anchorB w).mag M ≤ S) w (t₀ :: ticks))
    (hB : (1 - M.pow g.errorBias dt) * (openness M ia ib g.anchorA g.anchorB (w.step M sc t₀)).mag M ≤ g.maxBias * dt) (hSB : S ≤ g.maxBias * dt) :
    ∃ w', w.run M sc ((t₀ :: ticks).map .step) = some w' ∧ Hinged M ia ib g w' ∧
      (openness M ia ib g.anchorA g.anchorB w').mag M ≤
        M.pow g.errorBias dt ^ ticks.length * (openness M ia ib g.anchorA g.anchorB (w.step M sc t₀)).mag M + S * powers (M.pow g.errorBias dt) ticks.length ∧
      opening M ia ib g.anchorA g.anchorB w' = (openness M ia ib g.anchorA g.anchorB w').scale (-(1 - M.pow g.errorBias dt) / dt) := by
  have hc0 : 0 ≤ M.pow g.errorBias dt := hM.pow_nonneg _ _ he.1
  have hc1 : M.pow g.errorBias dt ≤ 1 := hM.pow_le _ _ he.1 he.2 h0.le
  obtain ⟨⟨p0, q0, -⟩, hrest⟩ := h
  obtain ⟨r0, -, -, s0⟩ := C133_step hM hn h0 hw p0
  replace s0 := s0 q0
  rw [List.map_cons]
  show ∃ w', (w.step M sc t₀).run M sc (ticks.map .step) = some w' ∧ _
  generalize w.step M sc t₀ = w1 at *
  clear p0 q0 hw w
  generalize hc : M.pow g.errorBias dt = c at *
  rw [unclamped hM h0 hc1 _ hB] at s0
  induction ticks generalizing w1 with
  | nil =>
    refine ⟨w1, rfl, r0, ?_, s0⟩
    simp [powers]
  | cons t ts ih =>
    obtain ⟨⟨p1, q1, v1⟩, hr⟩ := hrest
    obtain ⟨r1, e1, -, s1⟩ := C133_step hM hn h0 r0 p1
    replace s1 := s1 q1
    have hle : (openness M ia ib g.anchorA g.anchorB (w1.step M sc t)).mag M ≤ c * (openness M ia ib g.anchorA g.anchorB w1).mag M + S := by
      rw [e1, s0]
      have e2 : (openness M ia ib g.anchorA g.anchorB w1).add (((openness M ia ib g.anchorA g.anchorB w1).scale (-(1 - c) / dt)).scale dt) = (openness M ia ib g.anchorA g.anchorB w1).scale c := by
        have hd : dt ≠ 0 := h0.ne'
        refine V2.ext ?_ ?_ <;> simp only [V2.add, V2.scale] <;> field_simp <;> ring
      rw [e2]
      exact (mag_add_le hM _ _).trans (add_le_add (mag_scale_le hM hc0 _) v1)
    have hB' : (1 - c) * (openness M ia ib g.anchorA g.anchorB (w1.step M sc t)).mag M ≤ g.maxBias * dt := by
      have h1 := mul_le_mul_of_nonneg_left hle (by linarith : (0 : K) ≤ 1 - c)
      have h2 := mul_le_mul_of_nonneg_left hB hc0
      have h3 := mul_le_mul_of_nonneg_left hSB (by linarith : (0 : K) ≤ 1 - c)
      nlinarith
    rw [hc, unclamped hM h0 hc1 _ hB'] at s1
    obtain ⟨w', a1, a2, a3, a4⟩ := ih _ hr r1 hB' s1
    refine ⟨w', a1, a2, a3.trans ?_, a4⟩
    rw [List.length_cons, pow_succ, powers]
    have h4 := mul_le_mul_of_nonneg_left hle (pow_nonneg hc0 ts.length)
    have h5 := powers_closed c ts.length
    have h6 : c * powers c ts.length + 1 = powers c ts.length + c ^ ts.length := by linarith
    rw [h6]
    nlinarith

/-- **C133.** If the points are the centres of gravity, the arcs add nothing: the opening shrinks exactly, by the factor `errorBias ^ dt` in each step. -/
theorem C133_centres {M : Mth K} (hM : M.Lawful) {sc : Scene K} (hn : sc.par.iterations ≠ 0) {dt : K} (h0 : 0 < dt) {ia ib : Nat} {g : PivotJoint K} (he : 0 ≤ g.errorBias ∧ g.errorBias ≤ 1)
    {w : World K} (hw : Hinged M ia ib g w) (ha : g.anchorA = (w.bodies ia).cog) (hb : g.anchorB = (w.bodies ib).cog) (t₀ : Tick K) (ticks : List (Tick K))
    (h : EveryStep M sc (fun w t w' => Swings sc dt ia ib w t w' ∧ HoldsOut dt ia ib w') w (t₀ :: ticks))
    (hB : (1 - M.pow g.errorBias dt) * (openness M ia ib g.anchorA g.anchorB (w.step M sc t₀)).mag M ≤ g.maxBias * dt) :
    ∃ w', w.run M sc ((t₀ :: ticks).map .step) = some w' ∧
      openness M ia ib g.anchorA g.anchorB w' = (openness M ia ib g.anchorA g.anchorB (w.step M sc t₀)).scale (M.pow g.errorBias dt ^ ticks.length) := by
  have hc0 : 0 ≤ M.pow g.errorBias dt := hM.pow_nonneg _ _ he.1
  have hc1 : M.pow g.errorBias dt ≤ 1 := hM.pow_le _ _ he.1 he.2 h0.le
  obtain ⟨⟨p0, q0⟩, hrest⟩ := h
  obtain ⟨r0, -, ⟨g1, g2⟩, s0⟩ := C133_step hM hn h0 hw p0
  replace s0 := s0 q0
  rw [List.map_cons]
  show ∃ w', (w.step M sc t₀).run M sc (ticks.map .step) = some w' ∧ _
  rw [← g1] at ha
  rw [← g2] at hb
  generalize w.step M sc t₀ = w1 at *
  clear p0 q0 hw g1 g2 w
  generalize hc : M.pow g.errorBias dt = c at *
  rw [unclamped hM h0 hc1 _ hB] at s0
  induction ticks generalizing w1 with
  | nil =>
    refine ⟨w1, rfl, ?_⟩
    refine V2.ext ?_ ?_ <;> simp [V2.scale]
  | cons t ts ih =>
    obtain ⟨⟨p1, q1⟩, hr⟩ := hrest
    obtain ⟨r1, e1, ⟨g1, g2⟩, s1⟩ := C133_step hM hn h0 r0 p1
    replace s1 := s1 q1
    have hd : dt ≠ 0 := h0.ne'
    have e2 : openness M ia ib g.anchorA g.anchorB (w1.step M sc t) = (openness M ia ib g.anchorA g.anchorB w1).scale c := by
      rw [e1, s0]
      have z : ∀ (v : V2 K), v.sub v = V2.zero := fun v => V2.ext (sub_self _) (sub_self _)
      have zs : ∀ θ φ : K, swerve M θ φ V2.zero = V2.zero := by
        intro θ φ
        refine V2.ext ?_ ?_ <;> simp [swerve, armAt, V2.zero]
      rw [← ha, ← hb, z, z, zs, zs]
      refine V2.ext ?_ ?_ <;> simp only [V2.add, V2.scale, V2.sub, V2.zero] <;> field_simp <;> ring
    have hB' : (1 - c) * (openness M ia ib g.anchorA g.anchorB (w1.step M sc t)).mag M ≤ g.maxBias * dt := by
      rw [e2]
      have h1 := mul_le_mul_of_nonneg_left (mag_scale_le hM hc0 (openness M ia ib g.anchorA g.anchorB w1)) (by linarith : (0 : K) ≤ 1 - c)
      have h2 : (1 - c) * (c * (openness M ia ib g.anchorA g.anchorB w1).mag M) ≤ 1 * ((1 - c) * (openness M ia ib g.anchorA g.anchorB w1).mag M) := by
        have := mul_le_mul_of_nonneg_right hc1 (mul_nonneg (by linarith : (0 : K) ≤ 1 - c) (mag_nonneg hM (openness M ia ib g.anchorA g.anchorB w1)))
        linarith
      linarith
    rw [hc, unclamped hM h0 hc1 _ hB'] at s1
    obtain ⟨w', a1, a2⟩ := ih _ (by rw [g2]; exact hb) (by rw [g1]; exact ha) hr r1 hB' s1
    refine ⟨w', a1, ?_⟩
    rw [a2, e2, List.length_cons, pow_succ]
    refine V2.ext ?_ ?_ <;> simp only [V2.scale] <;> ring

/-! ## Real numbers -/

/-- An arc departs from its tangent by no more than half the square of its angle. -/
theorem arc_bound (φ : ℝ) : (Real.cos φ - 1) ^ 2 + (Real.sin φ - φ) ^ 2 ≤ (φ ^ 2 / 2) ^ 2 := by
  have main : ∀ x : ℝ, 0 ≤ x → 0 ≤ x ^ 4 / 4 - (2 - 2 * Real.cos x - 2 * x * Real.sin x + x ^ 2) := by
    intro x hx
    have hd : ∀ y : ℝ, HasDerivAt (fun x : ℝ => x ^ 4 / 4 - (2 - 2 * Real.cos x - 2 * x * Real.sin x + x ^ 2)) (y ^ 3 - 2 * y * (1 - Real.cos y)) y := by
      intro y
      have h1 : HasDerivAt (fun x : ℝ => x ^ 4 / 4) (y ^ 3) y := by
        have := (hasDerivAt_pow 4 y).div_const 4
        exact this.congr_deriv (by norm_num; try ring)
      have h2 : HasDerivAt (fun x : ℝ => 2 * Real.cos x) (2 * (-Real.sin y)) y := (Real.hasDerivAt_cos y).const_mul 2
      have h3 : HasDerivAt (fun x : ℝ => 2 * x * Real.sin x) (2 * 1 * Real.sin y + 2 * y * Real.cos y) y := ((hasDerivAt_id y).const_mul 2).mul (Real.hasDerivAt_sin y)
      have h4 : HasDerivAt (fun x : ℝ => x ^ 2) (2 * y) y := by
        have := hasDerivAt_pow 2 y
        exact this.congr_deriv (by norm_num; try ring)
      have := h1.sub ((((hasDerivAt_const y (2 : ℝ)).sub h2).sub h3).add h4)
      exact this.congr_deriv (by ring)
    have mono : MonotoneOn (fun x : ℝ => x ^ 4 / 4 - (2 - 2 * Real.cos x - 2 * x * Real.sin x + x ^ 2)) (Set.Ici 0) := by
      refine monotoneOn_of_deriv_nonneg (convex_Ici 0) ?_ ?_ ?_
      · exact fun y _ => (hd y).continuousAt.continuousWithinAt
      · exact fun y _ => (hd y).differentiableAt.differentiableWithinAt
      · intro y hy
        rw [interior_Ici] at hy
        rw [(hd y).deriv]
        have hy0 : 0 < y := hy
        have := Real.one_sub_sq_div_two_le_cos (x := y)
        nlinarith
    have := mono (Set.mem_Ici.2 le_rfl) (Set.mem_Ici.2 hx) hx
    simpa using this
  have e : (Real.cos φ - 1) ^ 2 + (Real.sin φ - φ) ^ 2 = 2 - 2 * Real.cos φ - 2 * φ * Real.sin φ + φ ^ 2 := by
    have := Real.cos_sq_add_sin_sq φ
    linear_combination this
  rw [e]
  rcases le_total 0 φ with h | h
  · have := main φ h
    nlinarith
  · have := main (-φ) (by linarith)
    rw [Real.cos_neg, Real.sin_neg] at this
    nlinarith

theorem swerve_real (θ φ : ℝ) (d : V2 ℝ) : (swerve realMth θ φ d).mag realMth ≤ φ ^ 2 / 2 * d.mag realMth := by
  refine mag_le realMth_lawful _ _ (mul_nonneg (by positivity) (mag_nonneg realMth_lawful d)) ?_
  have h := mag_sq realMth_lawful d
  have e : (swerve realMth θ φ d).lengthSq = ((Real.cos φ - 1) ^ 2 + (Real.sin φ - φ) ^ 2) * d.lengthSq := by
    have h1 := Real.cos_sq_add_sin_sq θ
    simp only [swerve, armAt, realMth, V2.lengthSq, V2.dot, Real.cos_add, Real.sin_add]
    have : ((Real.cos φ - 1) ^ 2 + (Real.sin φ - φ) ^ 2) * (d.x * d.x + d.y * d.y) =
      (Real.cos θ ^ 2 + Real.sin θ ^ 2) * (((Real.cos φ - 1) ^ 2 + (Real.sin φ - φ) ^ 2) * (d.x * d.x + d.y * d.y)) := by rw [h1, one_mul]
    rw [this]
    ring
  rw [e]
  have h2 := mul_le_mul_of_nonneg_right (arc_bound φ) (show 0 ≤ d.lengthSq by rw [← h]; exact mul_self_nonneg _)
  refine h2.trans (le_of_eq ?_)
  rw [← h]; ring

theorem everyStep_mono {M : Mth K} {sc : Scene K} {P Q : World K → Tick K → World K → Prop} (hPQ : ∀ w t w', P w t w' → Q w t w') : ∀ (ts : List (Tick K)) (w : World K), EveryStep M sc P w ts → EveryStep M sc Q w ts
  | [], _, _ => trivial
  | _ :: ts, _, h => ⟨hPQ _ _ _ h.1, everyStep_mono hPQ ts _ h.2⟩

namespace Spec
/-- Half the squares of the angles by which the bodies turn in a step, times the distances of the points from the centres. -/
noncomputable def arcs (dt : ℝ) (ia ib : Nat) (ca cb : V2 ℝ) (w : World ℝ) : ℝ :=
  ((w.bodies ia).w * dt) ^ 2 / 2 * (ca.sub (w.bodies ia).cog).mag realMth + ((w.bodies ib).w * dt) ^ 2 / 2 * (cb.sub (w.bodies ib).cog).mag realMth
end Spec

theorem mag_neg_eq {M : Mth K} (v : V2 K) : (V2.zero.sub v).mag M = v.mag M := by
  unfold V2.mag
  congr 1
  simp only [V2.lengthSq, V2.dot, V2.sub, V2.zero]; ring

/-- **C133.** With real numbers: the opening of a hinge that is strong enough stays below `S / (1 - errorBias ^ dt)` but for what is left of its first value, if `S` bounds half the squares of the angles turned in a step
times the distances of the hinge from the centres: it is of the second order in the length of the steps. -/
theorem C133_real {sc : Scene ℝ} (hn : sc.par.iterations ≠ 0) {dt : ℝ} (h0 : 0 < dt) {ia ib : Nat} {g : PivotJoint ℝ} (he : 0 ≤ g.errorBias ∧ g.errorBias < 1)
    {w : World ℝ} (hw : Hinged realMth ia ib g w) (S : ℝ) (hS : 0 ≤ S) (t₀ : Tick ℝ) (ticks : List (Tick ℝ))
    (h : EveryStep realMth sc (fun w t w' => Swings sc dt ia ib w t w' ∧ HoldsOut dt ia ib w' ∧ arcs dt ia ib g.anchorA g.anchorB w ≤ S) w (t₀ :: ticks))
    (hB : (1 - g.errorBias ^ dt) * (openness realMth ia ib g.anchorA g.anchorB (w.step realMth sc t₀)).mag realMth ≤ g.maxBias * dt) (hSB : S ≤ g.maxBias * dt) :
    ∃ w', w.run realMth sc ((t₀ :: ticks).map .step) = some w' ∧
      (openness realMth ia ib g.anchorA g.anchorB w').mag realMth ≤
        (g.errorBias ^ dt) ^ ticks.length * (openness realMth ia ib g.anchorA g.anchorB (w.step realMth sc t₀)).mag realMth + S / (1 - g.errorBias ^ dt) := by
  have hc1 : g.errorBias ^ dt < 1 := Real.rpow_lt_one he.1 he.2 h0
  have hc0 : 0 ≤ g.errorBias ^ dt := Real.rpow_nonneg he.1 dt
  obtain ⟨w', a1, -, a3, -⟩ := C133_hinge realMth_lawful hn h0 ⟨he.1, he.2.le⟩ hw S hS t₀ ticks (everyStep_mono (fun w t w' hp => ⟨hp.1, hp.2.1, by
    refine le_trans ?_ hp.2.2
    unfold swerving arcs
    have e : ∀ u v : V2 ℝ, u.sub v = u.add (V2.zero.sub v) := fun u v => V2.ext (by simp [V2.sub, V2.add, V2.zero]; ring) (by simp [V2.sub, V2.add, V2.zero]; ring)
    rw [e]
    refine (mag_add_le realMth_lawful _ _).trans ?_
    rw [mag_neg_eq, add_comm]
    exact add_le_add (swerve_real _ _ _) (swerve_real _ _ _)⟩) _ _ h) hB hSB
  refine ⟨w', a1, a3.trans ?_⟩
  show (g.errorBias ^ dt) ^ ticks.length * _ + S * powers (g.errorBias ^ dt) ticks.length ≤ _
  refine add_le_add le_rfl ?_
  rw [le_div_iff₀ (by linarith)]
  have := powers_closed (g.errorBias ^ dt) ticks.length
  have hp := pow_nonneg hc0 ticks.length
  have : S * powers (g.errorBias ^ dt) ticks.length * (1 - g.errorBias ^ dt) = S * (1 - (g.errorBias ^ dt) ^ ticks.length) := by rw [← this]; ring
  rw [this]
  nlinarith

/-! ## Examples: two bodies whose centres are two lengths apart and are to be held together, one of them turning, the other pushed by a torque; the first step and two more -/

def exHung (k : Nat) : Body ℚ :=
  if k = 0 then { Body.blank with m := 1, mInv := 1, i := 1, iInv := 1, w := 3, tr := ⟨1, 0, 0, 1, 0, 0⟩ }
  else { Body.blank with m := 1, mInv := 1/2, i := 2, iInv := 1/2, torque := 2, p := ⟨2, 0⟩, tr := ⟨1, 0, 0, 1, 2, 0⟩ }
def exHingeJoint : PivotJoint ℚ := ⟨⟨1000, 1/2, 100⟩, ⟨0, 0⟩, ⟨0, 0⟩, ⟨0, 0⟩, ⟨0, 0⟩, ⟨0, 0, 0, 0⟩, ⟨0, 0⟩, ⟨0, 0⟩⟩
def exHanging : World ℚ := { World.init exHung (fun _ => ⟨.circle ⟨⟨0, 0⟩, ⟨0, 0⟩, 1⟩, ⟨0, 0, 0, 0⟩, 0, ⟨1, 0⟩⟩) with joints := [⟨0, 1, .pivot exHingeJoint⟩] }

theorem exSwings {sc : Scene ℚ} {w w' : World ℚ} (h1 : (w.joints.all fun l => (l.ia == 0 || l.ia == 1) && (l.ib == 0 || l.ib == 1)) = true) (h2 : w'.active = []) : Swings sc (1/4) 0 1 w exSpinTick w' := by
  refine ⟨rfl, ⟨.inl (by decide), .inl (by decide)⟩, ⟨fun l hl hn => ?_, fun p hp => ?_⟩⟩
  · have := List.all_eq_true.1 h1 l hl
    simp only [Bool.and_eq_true, Bool.or_eq_true, beq_iff_eq] at this
    exact absurd this hn
  · rw [h2] at hp
    exact absurd hp List.not_mem_nil

def exHingeForce (ls : List (Link (Joint ℚ))) : ℚ × ℚ :=
  match ls with
  | [⟨_, _, .pivot g⟩] => (g.jAcc.lengthSq, g.maxForce)
  | _ => (0, 0)

theorem exHoldsOut {w : World ℚ} (h : let f := exHingeForce (w.joints.filter fun l => (l.ia == 0 || l.ia == 1) && (l.ib == 0 || l.ib == 1)); f.1 < (f.2 * (1/4)) * (f.2 * (1/4))) : HoldsOut (1/4) 0 1 w := by
  intro g' hj
  have e : (g'.jAcc.lengthSq, g'.maxForce) = _ := congrArg exHingeForce hj.joint.symm
  have e1 := congrArg Prod.fst e
  have e2 := congrArg Prod.snd e
  dsimp only at e1 e2
  rw [e1, e2]
  exact h

example : Hinged toyMth 0 1 exHingeJoint exHanging ∧ exHingeJoint.anchorA = (exHanging.bodies 0).cog ∧ exHingeJoint.anchorB = (exHanging.bodies 1).cog ∧
    EveryStep toyMth exBalls3 (fun w t w' => Swings exBalls3 (1/4) 0 1 w t w' ∧ HoldsOut (1/4) 0 1 w' ∧ (swerving toyMth (1/4) 0 1 exHingeJoint.anchorA exHingeJoint.anchorB w).mag toyMth ≤ 0) exHanging [exSpinTick, exSpinTick, exSpinTick] ∧
    (let w1 := exHanging.step toyMth exBalls3 exSpinTick
     let w2 := w1.step toyMth exBalls3 exSpinTick
     let op := openness toyMth 0 1 exHingeJoint.anchorA exHingeJoint.anchorB
     op w1 = ⟨2, 0⟩ ∧ op w2 = ⟨1, 0⟩ ∧ op (w2.step toyMth exBalls3 exSpinTick) = ⟨1/2, 0⟩ ∧ (1 - toyMth.pow exHingeJoint.errorBias (1/4)) * (op w1).mag toyMth ≤ exHingeJoint.maxBias * (1/4)) := by
  refine ⟨⟨⟨exHingeJoint, ⟨by decide, rfl⟩, rfl, rfl, rfl⟩, by unfold Seated Placed; decide +kernel, by unfold Movable; decide +kernel⟩, rfl, rfl, ⟨⟨exSwings (by decide +kernel) (by decide +kernel), exHoldsOut (by decide +kernel), by decide +kernel⟩,
    ⟨exSwings (by decide +kernel) (by decide +kernel), exHoldsOut (by decide +kernel), by decide +kernel⟩, ⟨exSwings (by decide +kernel) (by decide +kernel), exHoldsOut (by decide +kernel), by decide +kernel⟩, trivial⟩, by decide +kernel⟩

end Cm
