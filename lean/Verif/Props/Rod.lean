import Verif.Props.Hinge
/-! # C134: rods and ropes keep their length -/
set_option linter.unusedSectionVars false
set_option linter.unusedSimpArgs false
set_option linter.unusedVariables false

namespace Cm
open Spec
variable {K : Type} [Field K] [LinearOrder K] [IsStrictOrderedRing K]

namespace Spec
/-- The distance between the two points that a joint ties. -/
def reach (M : Mth K) (ia ib : Nat) (ca cb : V2 K) (w : World K) : K := (openness M ia ib ca cb w).mag M

/-- The direction from one to the other. -/
def bearing (M : Mth K) (ia ib : Nat) (ca cb : V2 K) (w : World K) : V2 K := (openness M ia ib ca cb w).scale (1 / reach M ia ib ca cb w)

/-- How fast the distance grows. -/
def spreading (M : Mth K) (ia ib : Nat) (ca cb : V2 K) (w : World K) : K := (opening M ia ib ca cb w).dot (bearing M ia ib ca cb w)

/-- How fast one of them moves about the other, across the line between them. -/
def drifting (M : Mth K) (ia ib : Nat) (ca cb : V2 K) (w : World K) : K := (bearing M ia ib ca cb w).cross (opening M ia ib ca cb w)

/-- By how much the distance after a step differs from what its speed makes of the distance before the step. -/
def surplus (M : Mth K) (dt : K) (ia ib : Nat) (ca cb : V2 K) (w w' : World K) : K := reach M ia ib ca cb w' - (reach M ia ib ca cb w + dt * spreading M ia ib ca cb w)

/-- Two bodies that can be moved, with transforms of their places, which no contact pushes. -/
structure Braced (M : Mth K) (ia ib : Nat) (w : World K) : Prop where
  seated : Seated M (w.bodies ia) ∧ Seated M (w.bodies ib)
  movable : Movable (w.bodies ia) (w.bodies ib)

/-- The bodies are joined by the rod (a pin joint). -/
structure Rodded (M : Mth K) (ia ib : Nat) (g : PinJoint K) (w : World K) : Prop extends Braced M ia ib w where
  joint : ∃ g', JoinedBy w ia ib (.pin g') ∧ g'.toJointCfg = g.toJointCfg ∧ g'.anchorA = g.anchorA ∧ g'.anchorB = g.anchorB ∧ g'.dist = g.dist

/-- The bodies are joined by the rope (a slide joint). -/
structure Roped (M : Mth K) (ia ib : Nat) (g : SlideJoint K) (w : World K) : Prop extends Braced M ia ib w where
  joint : ∃ g', JoinedBy w ia ib (.slide g') ∧ g'.toJointCfg = g.toJointCfg ∧ g'.anchorA = g.anchorA ∧ g'.anchorB = g.anchorB ∧ g'.min = g.min ∧ g'.max = g.max

/-- The rod did not need its greatest force. -/
def RodHolds (dt : K) (ia ib : Nat) (w : World K) : Prop := ∀ g', JoinedBy w ia ib (.pin g') → |g'.jnAcc| < g'.maxForce * dt
/-- Nor the rope. -/
def RopeHolds (dt : K) (ia ib : Nat) (w : World K) : Prop := ∀ g', JoinedBy w ia ib (.slide g') → -(g'.maxForce * dt) < g'.jnAcc
end Spec

/-! ## The solver -/

theorem kin_gap {A B a b : Body K} (ha : Kin A a) (hb : Kin B b) (ca cb : V2 K) : Spec.gap a b ca cb = Spec.gap A B ca cb := by
  unfold Spec.gap
  rw [kin_offset ha, kin_offset hb, ha.1, hb.1]

theorem kin_kScalar {A B a b : Body K} (ha : Kin A a) (hb : Kin B b) (r1 r2 n : V2 K) : kScalar a b r1 r2 n = kScalar A B r1 r2 n := by
  unfold kScalar kScalarBody
  obtain ⟨-, -, -, -, h5, h6, -⟩ := ha
  obtain ⟨-, -, -, -, k5, k6, -⟩ := hb
  rw [h5, h6, k5, k6]

theorem kin_pin (M : Mth K) (inf : K) {A B a b : Body K} (ha : Kin A a) (hb : Kin B b) (g : PinJoint K) (dt : K) : g.preStep M inf a b dt = g.preStep M inf A B dt := by
  unfold PinJoint.preStep
  dsimp only
  rw [kin_offset ha, kin_offset hb, ha.1, hb.1, kin_kScalar ha hb]

theorem kin_slide (M : Mth K) {A B a b : Body K} (ha : Kin A a) (hb : Kin B b) (g : SlideJoint K) (dt : K) : g.preStep M a b dt = g.preStep M A B dt := by
  unfold SlideJoint.preStep
  dsimp only
  rw [kin_offset ha, kin_offset hb, ha.1, hb.1, kin_kScalar ha hb]

theorem placed_movable (M : Mth K) (dt : K) (dyn : List Nat) (ia ib : Nat) {a b : Body K} (hm : Movable a b) : Movable (placed M dt dyn ia a) (placed M dt dyn ib b) := by
  have hA : (placed M dt dyn ia a).mInv = a.mInv ∧ (placed M dt dyn ia a).iInv = a.iInv := by unfold placed; split <;> exact ⟨rfl, rfl⟩
  have hB : (placed M dt dyn ib b).mInv = b.mInv ∧ (placed M dt dyn ib b).iInv = b.iInv := by unfold placed; split <;> exact ⟨rfl, rfl⟩
  unfold Movable
  rw [hA.1, hA.2, hB.1, hB.2]
  exact hm

/-- What the solver makes of a rod. -/
theorem pin_solve {M : Mth K} (hM : M.Lawful) {par : Params K} (hn : par.iterations ≠ 0) (prevDT dt : K) (dyn : List Nat) (ia ib : Nat) (a b : Body K) (g : PinJoint K) (hm : Movable a b) :
    let A := placed M dt dyn ia a
    let B := placed M dt dyn ib b
    let r := jointSolve M par prevDT dt dyn ia ib a b (.pin g)
    let d := Spec.gap A B g.anchorA g.anchorB
    Kin A r.1 ∧ Kin B r.2.1 ∧ ∃ j, r.2.2 = .pin { g.preStep M par.inf A B dt with jnAcc := j } ∧
      (d ≠ V2.zero → |j| < g.maxForce * dt →
        approach r.1 r.2.1 (anchorOffset A g.anchorA) (anchorOffset B g.anchorB) (d.scale (1 / d.mag M)) = correction M g.toJointCfg dt (g.dist - d.mag M)) := by
  intro A B r d
  have hmAB : Movable A B := placed_movable M dt dyn ia ib hm
  generalize hco : (if prevDT ≠ 0 then dt / prevDT else 0) = co
  generalize hG : g.preStep M par.inf A B dt = G
  have hr : r = (fun x : Body K × Body K × Joint K => x.2.2.applyImpulse M x.1 x.2.1 dt)^[par.iterations]
      ((applyImpulses (readied M par dt dyn ia a) (readied M par dt dyn ib b) G.r1 G.r2 (G.n.scale (G.jnAcc * co))).1,
        (applyImpulses (readied M par dt dyn ia a) (readied M par dt dyn ib b) G.r1 G.r2 (G.n.scale (G.jnAcc * co))).2, .pin G) := by
    rw [← hG, ← hco]; rfl
  have k0 := kin_push (readied M par dt dyn ia a) (readied M par dt dyn ib b) G.r1 G.r2 (G.n.scale (G.jnAcc * co))
  have ka := kin_trans (kin_readied M par dt dyn ia a) k0.1
  have kb := kin_trans (kin_readied M par dt dyn ib b) k0.2
  generalize applyImpulses (readied M par dt dyn ia a) (readied M par dt dyn ib b) G.r1 G.r2 (G.n.scale (G.jnAcc * co)) = ab at hr ka kb
  have hit : ∀ (n : Nat) (x : Body K × Body K × Joint K), Kin A x.1 → Kin B x.2.1 → (∃ j, x.2.2 = .pin { G with jnAcc := j }) →
      let y := (fun x : Body K × Body K × Joint K => x.2.2.applyImpulse M x.1 x.2.1 dt)^[n] x
      Kin A y.1 ∧ Kin B y.2.1 ∧ ∃ j, y.2.2 = .pin { G with jnAcc := j } := by
    intro n
    induction n with
    | zero => intro x h1 h2 h3; exact ⟨h1, h2, h3⟩
    | succ n ih =>
      rintro ⟨a', b', jt⟩ h1 h2 ⟨j, rfl : jt = _⟩
      rw [Function.iterate_succ_apply]
      refine ih _ ?_ ?_ ?_
      · exact kin_trans h1 (kin_push a' b' G.r1 G.r2 _).1
      · exact kin_trans h2 (kin_push a' b' G.r1 G.r2 _).2
      · exact ⟨_, rfl⟩
  obtain ⟨n, hn'⟩ := Nat.exists_eq_succ_of_ne_zero hn
  rw [hn', Function.iterate_succ_apply'] at hr
  obtain ⟨i1, i2, j, i3⟩ := hit n (ab.1, ab.2, .pin G) ka kb ⟨G.jnAcc, rfl⟩
  generalize (fun x : Body K × Body K × Joint K => x.2.2.applyImpulse M x.1 x.2.1 dt)^[n] (ab.1, ab.2, .pin G) = y at hr i1 i2 i3
  obtain ⟨a', b', jt⟩ := y
  dsimp only at hr i1 i2 i3
  subst i3
  rw [hr]
  refine ⟨kin_trans i1 (kin_push a' b' G.r1 G.r2 _).1, kin_trans i2 (kin_push a' b' G.r1 G.r2 _).2, _, rfl, fun hd hlim => ?_⟩
  have hc := C39_pin hM par.inf dt { g with jnAcc := j } a' b' a' b' rfl rfl (kin_movable hmAB i1 i2) (by rw [kin_gap i1 i2]; exact hd)
  have hg : ({ g with jnAcc := j } : PinJoint K).preStep M par.inf a' b' dt = { G with jnAcc := j } := by
    rw [kin_pin M _ i1 i2, ← hG]; rfl
  dsimp only at hc
  rw [hg, kin_gap i1 i2, kin_offset i1, kin_offset i2] at hc
  exact hc hlim

theorem slide_iter (M : Mth K) (dt : K) (A B : Body K) (G : SlideJoint K) : ∀ (n : Nat) (x : Body K × Body K × Joint K), Kin A x.1 → Kin B x.2.1 → (∃ j, x.2.2 = .slide { G with jnAcc := j }) →
    let y := (fun x : Body K × Body K × Joint K => x.2.2.applyImpulse M x.1 x.2.1 dt)^[n] x
    Kin A y.1 ∧ Kin B y.2.1 ∧ ∃ j, y.2.2 = .slide { G with jnAcc := j } := by
  intro n
  induction n with
  | zero => intro x h1 h2 h3; exact ⟨h1, h2, h3⟩
  | succ n ih =>
    rintro ⟨a', b', jt⟩ h1 h2 ⟨j, rfl : jt = _⟩
    rw [Function.iterate_succ_apply]
    have e : (Joint.slide { G with jnAcc := j }).applyImpulse M a' b' dt = if G.n = V2.zero then (a', b', .slide { G with jnAcc := j }) else
        let jn := clamp (j + (G.bias - (relativeVelocity a' b' G.r1 G.r2).dot G.n) * G.nMass) (-G.maxForce * dt) 0
        ((applyImpulses a' b' G.r1 G.r2 (G.n.scale (jn - j))).1, (applyImpulses a' b' G.r1 G.r2 (G.n.scale (jn - j))).2, .slide { G with jnAcc := jn }) := by
      show ((SlideJoint.applyImpulse { G with jnAcc := j } a' b' dt).1, (SlideJoint.applyImpulse { G with jnAcc := j } a' b' dt).2.1, Joint.slide (SlideJoint.applyImpulse { G with jnAcc := j } a' b' dt).2.2) = _
      unfold SlideJoint.applyImpulse
      dsimp only
      split <;> rfl
    dsimp only
    rw [e]
    by_cases hz : G.n = V2.zero
    · rw [if_pos hz]
      exact ih _ h1 h2 ⟨j, rfl⟩
    · rw [if_neg hz]
      refine ih _ ?_ ?_ ?_
      · exact kin_trans h1 (kin_push a' b' G.r1 G.r2 _).1
      · exact kin_trans h2 (kin_push a' b' G.r1 G.r2 _).2
      · exact ⟨_, rfl⟩

/-- What the solver makes of a rope. -/
theorem slide_solve {M : Mth K} (hM : M.Lawful) {par : Params K} (hn : par.iterations ≠ 0) (prevDT dt : K) (dyn : List Nat) (ia ib : Nat) (a b : Body K) (g : SlideJoint K) (hm : Movable a b) (hf : 0 ≤ g.maxForce * dt) (h0 : 0 ≤ g.max) :
    let A := placed M dt dyn ia a
    let B := placed M dt dyn ib b
    let r := jointSolve M par prevDT dt dyn ia ib a b (.slide g)
    let d := Spec.gap A B g.anchorA g.anchorB
    Kin A r.1 ∧ Kin B r.2.1 ∧ ∃ j, r.2.2 = .slide { g.preStep M A B dt with jnAcc := j } ∧
      (g.max < d.mag M → -(g.maxForce * dt) < j →
        approach r.1 r.2.1 (anchorOffset A g.anchorA) (anchorOffset B g.anchorB) (d.scale (1 / d.mag M)) ≤ correction M g.toJointCfg dt (g.max - d.mag M)) := by
  intro A B r d
  have hmAB : Movable A B := placed_movable M dt dyn ia ib hm
  generalize hco : (if prevDT ≠ 0 then dt / prevDT else 0) = co
  generalize hG : g.preStep M A B dt = G
  have hr : r = (fun x : Body K × Body K × Joint K => x.2.2.applyImpulse M x.1 x.2.1 dt)^[par.iterations]
      ((applyImpulses (readied M par dt dyn ia a) (readied M par dt dyn ib b) G.r1 G.r2 (G.n.scale (G.jnAcc * co))).1,
        (applyImpulses (readied M par dt dyn ia a) (readied M par dt dyn ib b) G.r1 G.r2 (G.n.scale (G.jnAcc * co))).2, .slide G) := by
    rw [← hG, ← hco]; rfl
  have k0 := kin_push (readied M par dt dyn ia a) (readied M par dt dyn ib b) G.r1 G.r2 (G.n.scale (G.jnAcc * co))
  have ka := kin_trans (kin_readied M par dt dyn ia a) k0.1
  have kb := kin_trans (kin_readied M par dt dyn ib b) k0.2
  generalize applyImpulses (readied M par dt dyn ia a) (readied M par dt dyn ib b) G.r1 G.r2 (G.n.scale (G.jnAcc * co)) = ab at hr ka kb
  obtain ⟨z1, z2, j2, z3⟩ := slide_iter M dt A B G par.iterations (ab.1, ab.2, .slide G) ka kb ⟨G.jnAcc, rfl⟩
  rw [← hr] at z1 z2 z3
  refine ⟨z1, z2, j2, z3, fun hlong hlim => ?_⟩
  obtain ⟨n, hn'⟩ := Nat.exists_eq_succ_of_ne_zero hn
  rw [hn', Function.iterate_succ_apply'] at hr
  obtain ⟨i1, i2, j, i3⟩ := slide_iter M dt A B G n (ab.1, ab.2, .slide G) ka kb ⟨G.jnAcc, rfl⟩
  generalize (fun x : Body K × Body K × Joint K => x.2.2.applyImpulse M x.1 x.2.1 dt)^[n] (ab.1, ab.2, .slide G) = y at hr i1 i2 i3
  obtain ⟨a', b', jt⟩ := y
  dsimp only at hr i1 i2 i3
  subst i3
  have hlong' : g.max < (Spec.gap a' b' g.anchorA g.anchorB).mag M := by rw [kin_gap i1 i2]; exact hlong
  have hc := C39_slide_long hM dt { g with jnAcc := j } a' b' a' b' rfl rfl (kin_movable hmAB i1 i2) hf h0 hlong'
  have hg : ({ g with jnAcc := j } : SlideJoint K).preStep M a' b' dt = { G with jnAcc := j } := by
    rw [kin_slide M i1 i2, ← hG]
    unfold SlideJoint.preStep
    dsimp only
    have hl : ((B.p.add (anchorOffset B g.anchorB)).sub (A.p.add (anchorOffset A g.anchorA))).mag M > g.max := hlong
    simp only [if_pos hl]
  have hr' : r = (((SlideJoint.applyImpulse { G with jnAcc := j } a' b' dt).1, (SlideJoint.applyImpulse { G with jnAcc := j } a' b' dt).2.1, Joint.slide (SlideJoint.applyImpulse { G with jnAcc := j } a' b' dt).2.2) : Body K × Body K × Joint K) := hr
  have hj2 : (SlideJoint.applyImpulse { G with jnAcc := j } a' b' dt).2.2.jnAcc = j2 := by
    rw [hr'] at z3
    have := Joint.slide.inj z3
    rw [this]
  dsimp only at hc
  rw [hg, kin_gap i1 i2, kin_offset i1, kin_offset i2, hj2] at hc
  have hneg : j2 ≤ 0 := by
    by_contra hcon
    have hnz : G.n ≠ V2.zero := by
      intro e
      have hd : d ≠ V2.zero := by
        intro e'
        have := mag_zero (K := K) hM
        rw [← e'] at this
        rw [this] at hlong
        linarith
      have e1 : G.n = d.scale (1 / d.mag M) := by
        rw [← hG]
        unfold SlideJoint.preStep
        dsimp only
        have hl : ((B.p.add (anchorOffset B g.anchorB)).sub (A.p.add (anchorOffset A g.anchorA))).mag M > g.max := hlong
        rw [if_pos hl]
        rfl
      have := mag_scale_inv hM d hd
      rw [← e1, e] at this
      simp [V2.zero] at this
    rw [← hj2] at hcon
    unfold SlideJoint.applyImpulse at hcon
    rw [if_neg hnz] at hcon
    dsimp only at hcon
    have hGf : G.maxForce = g.maxForce := by rw [← hG]; rfl
    rw [clamp_eq _ _ _ (by rw [hGf]; linarith [neg_mul g.maxForce dt])] at hcon
    refine hcon (max_le (by rw [hGf]; linarith [neg_mul g.maxForce dt]) (min_le_right _ _))
  rw [hr']
  rcases lt_or_eq_of_le hneg with h | h
  · exact le_of_eq (hc.1 hlim h)
  · exact hc.2 hlim h

/-! ## In the whole simulation -/

/-- One step of two bodies tied by a joint that gives them nothing but speeds. -/
theorem tied_step {M : Mth K} {sc : Scene K} {ia ib : Nat} {jt : Joint K} {w : World K} {t : Tick K} (h0 : 0 < t.dt) (hj : JoinedBy w ia ib jt) (hf : Braced M ia ib w)
    (h : Swings sc t.dt ia ib w t (w.step M sc t))
    (hk : Kin (placed M t.dt t.dyn ia (w.bodies ia)) (jointSolve M sc.par w.prevDT t.dt t.dyn ia ib (w.bodies ia) (w.bodies ib) jt).1 ∧
      Kin (placed M t.dt t.dyn ib (w.bodies ib)) (jointSolve M sc.par w.prevDT t.dt t.dyn ia ib (w.bodies ia) (w.bodies ib) jt).2.1) :
    let w' := w.step M sc t
    let A := placed M t.dt t.dyn ia (w.bodies ia)
    let B := placed M t.dt t.dyn ib (w.bodies ib)
    let r := jointSolve M sc.par w.prevDT t.dt t.dyn ia ib (w.bodies ia) (w.bodies ib) jt
    JoinedBy w' ia ib r.2.2 ∧ Braced M ia ib w' ∧
    ∀ ca cb, openness M ia ib ca cb w' = ((openness M ia ib ca cb w).add ((opening M ia ib ca cb w).scale t.dt)).add (swerving M t.dt ia ib ca cb w) ∧
      Spec.gap A B ca cb = openness M ia ib ca cb w' ∧ relVel r.1 r.2.1 (anchorOffset A ca) (anchorOffset B cb) = opening M ia ib ca cb w' := by
  intro w' A B r
  obtain ⟨⟨sa, sb⟩, hm⟩ := hf
  have hmov : ¬ (Immovable (w.bodies ia) ∧ Immovable (w.bodies ib)) := by
    rintro ⟨i1, i2⟩
    have := hm.2.2.2.2
    rw [i1.1, i2.1] at this
    simp at this
  obtain ⟨ea, eb, ej⟩ := only_joint h0.ne' hj h.free hmov
  obtain ⟨ka, kb⟩ := hk
  rw [← ea] at ka
  rw [← eb] at kb
  obtain ⟨pa, pa1, pa2, pa3, pa4, pa5⟩ := placed_spot (dt := t.dt) h.borne.1 sa
  obtain ⟨pb, pb1, pb2, pb3, pb4, pb5⟩ := placed_spot (dt := t.dt) h.borne.2 sb
  have hSa : Seated M (w'.bodies ia) := by
    obtain ⟨k1, k2, k3, k4, -, -, k7, k8⟩ := ka
    refine ⟨?_, k7.trans pa.2.1, k8.trans pa.2.2⟩
    show _ = _
    rw [k2, k1, k3, k4]; exact pa.1
  have hSb : Seated M (w'.bodies ib) := by
    obtain ⟨k1, k2, k3, k4, -, -, k7, k8⟩ := kb
    refine ⟨?_, k7.trans pb.2.1, k8.trans pb.2.2⟩
    show _ = _
    rw [k2, k1, k3, k4]; exact pb.1
  refine ⟨ej, ⟨⟨hSa, hSb⟩, kin_movable (placed_movable M t.dt t.dyn ia ib hm) ka kb⟩, fun ca cb => ⟨?_, ?_, ?_⟩⟩
  · have qa : (w'.bodies ia).angle = (w.bodies ia).angle + (w.bodies ia).w * t.dt := ka.2.2.2.1.trans pa2
    have qb : (w'.bodies ib).angle = (w.bodies ib).angle + (w.bodies ib).w * t.dt := kb.2.2.2.1.trans pb2
    unfold openness spotOf
    rw [ka.1, kb.1, pa1, pb1, ka.2.2.1, kb.2.2.1, pa3, pb3, qa, qb]
    unfold opening swerving swerve relVel pointVel
    refine V2.ext ?_ ?_ <;> simp only [V2.add, V2.sub, V2.scale] <;> ring
  · unfold Spec.gap openness spotOf
    rw [← kin_offset ka, ← kin_offset kb, offset_arm hSa.1, offset_arm hSb.1, ka.1, kb.1]
  · show relVel (jointSolve _ _ _ _ _ _ _ _ _ _).1 (jointSolve _ _ _ _ _ _ _ _ _ _).2.1 _ _ = _
    rw [← ea, ← eb, ← kin_offset ka, ← kin_offset kb, offset_arm hSa.1, offset_arm hSb.1]
    rfl

theorem approach_relVel (a b : Body K) (r1 r2 n : V2 K) : approach a b r1 r2 n = (relVel a b r1 r2).dot n := by
  unfold approach relVel V2.dot
  ring

/-- **C134.** One step with a rod: the points it ties move on with their speeds and swerve along their arcs; and unless the rod needs its greatest force, it leaves them exactly the speed along the line between
them with which it corrects its length. -/
theorem C134_step {M : Mth K} (hM : M.Lawful) {sc : Scene K} (hn : sc.par.iterations ≠ 0) {dt : K} (h0 : 0 < dt) {ia ib : Nat} {g : PinJoint K} {w : World K} {t : Tick K} (hw : Rodded M ia ib g w)
    (h : Swings sc dt ia ib w t (w.step M sc t)) :
    let w' := w.step M sc t
    let ca := g.anchorA
    let cb := g.anchorB
    Rodded M ia ib g w' ∧
    openness M ia ib ca cb w' = ((openness M ia ib ca cb w).add ((opening M ia ib ca cb w).scale dt)).add (swerving M dt ia ib ca cb w) ∧
    (0 < reach M ia ib ca cb w' → RodHolds dt ia ib w' → spreading M ia ib ca cb w' = correction M g.toJointCfg dt (g.dist - reach M ia ib ca cb w')) := by
  intro w' ca cb
  obtain rfl := h.length
  obtain ⟨hf, ⟨g1, j1, c1, c2, c3, c4⟩⟩ := hw
  obtain ⟨ka, kb, j, r1, r2⟩ := pin_solve hM hn w.prevDT t.dt t.dyn ia ib (w.bodies ia) (w.bodies ib) g1 hf.movable
  obtain ⟨q1, q2, q3⟩ := tied_step h0 j1 hf h ⟨ka, kb⟩
  rw [r1] at q1
  obtain ⟨o1, o2, o3⟩ := q3 ca cb
  refine ⟨⟨q2, ⟨_, q1, c1, c2, c3, c4⟩⟩, o1, fun hp hs => ?_⟩
  rw [c2, c3] at r2
  rw [o2, approach_relVel, o3, c1, c4] at r2
  have f1 : g1.maxForce = g.maxForce := congrArg JointCfg.maxForce c1
  have hne : openness M ia ib ca cb w' ≠ V2.zero := by
    intro e
    unfold reach at hp
    rw [e, mag_zero hM] at hp
    exact lt_irrefl _ hp
  have hl := hs _ q1
  exact r2 hne (by rw [← f1]; exact hl)

/-- The same with a rope that is stretched. -/
theorem C134_step_rope {M : Mth K} (hM : M.Lawful) {sc : Scene K} (hn : sc.par.iterations ≠ 0) {dt : K} (h0 : 0 < dt) {ia ib : Nat} {g : SlideJoint K} (hF : 0 ≤ g.maxForce) (hX : 0 ≤ g.max)
    {w : World K} {t : Tick K} (hw : Roped M ia ib g w) (h : Swings sc dt ia ib w t (w.step M sc t)) :
    let w' := w.step M sc t
    let ca := g.anchorA
    let cb := g.anchorB
    Roped M ia ib g w' ∧
    openness M ia ib ca cb w' = ((openness M ia ib ca cb w).add ((opening M ia ib ca cb w).scale dt)).add (swerving M dt ia ib ca cb w) ∧
    (g.max < reach M ia ib ca cb w' → RopeHolds dt ia ib w' → spreading M ia ib ca cb w' ≤ correction M g.toJointCfg dt (g.max - reach M ia ib ca cb w')) := by
  intro w' ca cb
  obtain rfl := h.length
  obtain ⟨hf, ⟨g1, j1, c1, c2, c3, c4, c5⟩⟩ := hw
  have f1 : g1.maxForce = g.maxForce := congrArg JointCfg.maxForce c1
  obtain ⟨ka, kb, j, r1, r2⟩ := slide_solve hM hn w.prevDT t.dt t.dyn ia ib (w.bodies ia) (w.bodies ib) g1 hf.movable (by rw [f1]; exact mul_nonneg hF h0.le) (by rw [c5]; exact hX)
  obtain ⟨q1, q2, q3⟩ := tied_step h0 j1 hf h ⟨ka, kb⟩
  rw [r1] at q1
  obtain ⟨o1, o2, o3⟩ := q3 ca cb
  refine ⟨⟨q2, ⟨_, q1, c1, c2, c3, c4, c5⟩⟩, o1, fun hp hs => ?_⟩
  rw [c2, c3] at r2
  rw [o2, approach_relVel, o3, c1, c5] at r2
  have hl := hs _ q1
  exact r2 hp (by rw [← f1]; exact hl)

/-! ## Many steps -/

theorem correction_free {M : Mth K} {cfg : JointCfg K} {dt c e : K} (h0 : 0 < dt) (hc : M.pow cfg.errorBias dt = c) (hc1 : c ≤ 1) (h : (1 - c) * |e| ≤ cfg.maxBias * dt) : correction M cfg dt e = (1 - c) * e / dt := by
  unfold correction
  rw [hc]
  have h1 : |(1 - c) * e / dt| ≤ cfg.maxBias := by
    rw [abs_div, abs_mul, abs_of_pos h0, abs_of_nonneg (by linarith : (0 : K) ≤ 1 - c), div_le_iff₀ h0]
    exact h
  obtain ⟨h2, h3⟩ := abs_le.1 h1
  rw [clamp_eq _ _ _ (by linarith), min_eq_left h3, max_eq_right h2]

/-- **C134.** A rod that is strong enough keeps its length, whatever forces and speeds the bodies have: its error shrinks in each step to the part `errorBias ^ dt` of itself, but for the surplus of the step
over what the speed along the line makes of the length. So it stays below a bound for ever. -/
theorem C134_rod {M : Mth K} (hM : M.Lawful) {sc : Scene K} (hn : sc.par.iterations ≠ 0) {dt : K} (h0 : 0 < dt) {ia ib : Nat} {g : PinJoint K} (he : 0 ≤ g.errorBias ∧ g.errorBias ≤ 1)
    {w : World K} (hw : Rodded M ia ib g w) (S : K) (hS : 0 ≤ S) (t₀ : Tick K) (ticks : List (Tick K))
    (h : EveryStep M sc (fun w t w' => Swings sc dt ia ib w t w' ∧ RodHolds dt ia ib w' ∧ 0 < reach M ia ib g.anchorA g.anchorB w') w (t₀ :: ticks))
    (hs : EveryStep M sc (fun w t w' => |surplus M dt ia ib g.anchorA g.anchorB w w'| ≤ S) (w.step M sc t₀) ticks)
    (hB : (1 - M.pow g.errorBias dt) * |g.dist - reach M ia ib g.anchorA g.anchorB (w.step M sc t₀)| ≤ g.maxBias * dt) (hSB : S ≤ g.maxBias * dt) :
    ∃ w', w.run M sc ((t₀ :: ticks).map .step) = some w' ∧ Rodded M ia ib g w' ∧
      |g.dist - reach M ia ib g.anchorA g.anchorB w'| ≤
        M.pow g.errorBias dt ^ ticks.length * |g.dist - reach M ia ib g.anchorA g.anchorB (w.step M sc t₀)| + S * powers (M.pow g.errorBias dt) ticks.length := by
  have hc0 : 0 ≤ M.pow g.errorBias dt := hM.pow_nonneg _ _ he.1
  have hc1 : M.pow g.errorBias dt ≤ 1 := hM.pow_le _ _ he.1 he.2 h0.le
  obtain ⟨⟨p0, q0, z0⟩, hrest⟩ := h
  obtain ⟨r0, -, s0⟩ := C134_step hM hn h0 hw p0
  replace s0 := s0 z0 q0
  rw [List.map_cons]
  show ∃ w', (w.step M sc t₀).run M sc (ticks.map .step) = some w' ∧ _
  generalize w.step M sc t₀ = w1 at *
  clear p0 q0 hw w z0
  generalize hc : M.pow g.errorBias dt = c at *
  rw [correction_free h0 hc hc1 hB] at s0
  induction ticks generalizing w1 with
  | nil =>
    refine ⟨w1, rfl, r0, ?_⟩
    simp [powers]
  | cons t ts ih =>
    obtain ⟨⟨p1, q1, z1⟩, hr⟩ := hrest
    obtain ⟨v1, hs'⟩ := hs
    obtain ⟨r1, -, s1⟩ := C134_step hM hn h0 r0 p1
    replace s1 := s1 z1 q1
    have hle : |g.dist - reach M ia ib g.anchorA g.anchorB (w1.step M sc t)| ≤ c * |g.dist - reach M ia ib g.anchorA g.anchorB w1| + S := by
      have e : g.dist - reach M ia ib g.anchorA g.anchorB (w1.step M sc t) = c * (g.dist - reach M ia ib g.anchorA g.anchorB w1) - surplus M dt ia ib g.anchorA g.anchorB w1 (w1.step M sc t) := by
        unfold surplus
        rw [s0]
        have hd : dt ≠ 0 := h0.ne'
        field_simp
        ring
      rw [e]
      refine (abs_sub _ _).trans ?_
      rw [abs_mul, abs_of_nonneg hc0]
      exact add_le_add le_rfl v1
    have hB' : (1 - c) * |g.dist - reach M ia ib g.anchorA g.anchorB (w1.step M sc t)| ≤ g.maxBias * dt := by
      have h1 := mul_le_mul_of_nonneg_left hle (by linarith : (0 : K) ≤ 1 - c)
      have h2 := mul_le_mul_of_nonneg_left hB hc0
      have h3 := mul_le_mul_of_nonneg_left hSB (by linarith : (0 : K) ≤ 1 - c)
      nlinarith
    rw [correction_free h0 hc hc1 hB'] at s1
    obtain ⟨w', a1, a2, a3⟩ := ih (w1.step M sc t) (by assumption) (by assumption) (by assumption) (by assumption) (by assumption)
    refine ⟨w', a1, a2, a3.trans ?_⟩
    have h1 := mul_le_mul_of_nonneg_left hle (pow_nonneg hc0 ts.length)
    have h2 : c ^ ts.length + powers c ts.length = powers c (ts.length + 1) := by
      have : ∀ n, c ^ n + powers c n = powers c (n + 1) := by
        intro n
        induction n with
        | zero => simp [powers]
        | succ n ih => rw [powers, powers, ← ih, pow_succ]; ring
      exact this _
    rw [List.length_cons, ← h2, pow_succ]
    nlinarith

/-- **C134.** A rope that is strong enough gives way no more than a rod while it is stretched. -/
theorem C134_rope {M : Mth K} (hM : M.Lawful) {sc : Scene K} (hn : sc.par.iterations ≠ 0) {dt : K} (h0 : 0 < dt) {ia ib : Nat} {g : SlideJoint K} (he : 0 ≤ g.errorBias ∧ g.errorBias ≤ 1) (hF : 0 ≤ g.maxForce) (hX : 0 ≤ g.max)
    {w : World K} (hw : Roped M ia ib g w) (S : K) (hS : 0 ≤ S) (t₀ : Tick K) (ticks : List (Tick K))
    (h : EveryStep M sc (fun w t w' => Swings sc dt ia ib w t w' ∧ RopeHolds dt ia ib w' ∧ g.max < reach M ia ib g.anchorA g.anchorB w') w (t₀ :: ticks))
    (hs : EveryStep M sc (fun w t w' => surplus M dt ia ib g.anchorA g.anchorB w w' ≤ S) (w.step M sc t₀) ticks)
    (hB : (1 - M.pow g.errorBias dt) * (reach M ia ib g.anchorA g.anchorB (w.step M sc t₀) - g.max) ≤ g.maxBias * dt) (hSB : S ≤ g.maxBias * dt) :
    ∃ w', w.run M sc ((t₀ :: ticks).map .step) = some w' ∧ Roped M ia ib g w' ∧
      reach M ia ib g.anchorA g.anchorB w' - g.max ≤
        M.pow g.errorBias dt ^ ticks.length * (reach M ia ib g.anchorA g.anchorB (w.step M sc t₀) - g.max) + S * powers (M.pow g.errorBias dt) ticks.length := by
  have hc0 : 0 ≤ M.pow g.errorBias dt := hM.pow_nonneg _ _ he.1
  have hc1 : M.pow g.errorBias dt ≤ 1 := hM.pow_le _ _ he.1 he.2 h0.le
  obtain ⟨⟨p0, q0, z0⟩, hrest⟩ := h
  obtain ⟨r0, -, s0⟩ := C134_step_rope hM hn h0 hF hX hw p0
  replace s0 := s0 z0 q0
  rw [List.map_cons]
  show ∃ w', (w.step M sc t₀).run M sc (ticks.map .step) = some w' ∧ _
  generalize w.step M sc t₀ = w1 at *
  clear p0 q0 hw w
  generalize hc : M.pow g.errorBias dt = c at *
  have free : ∀ x : K, g.max < x → (1 - c) * (x - g.max) ≤ g.maxBias * dt → correction M g.toJointCfg dt (g.max - x) = (1 - c) * (g.max - x) / dt := by
    intro x hx hb
    refine correction_free h0 hc hc1 ?_
    rw [abs_sub_comm, abs_of_pos (by linarith)]
    exact hb
  rw [free _ z0 hB] at s0
  induction ticks generalizing w1 with
  | nil =>
    refine ⟨w1, rfl, r0, ?_⟩
    simp [powers]
  | cons t ts ih =>
    obtain ⟨⟨p1, q1, z1⟩, hr⟩ := hrest
    obtain ⟨v1, hs'⟩ := hs
    obtain ⟨r1, -, s1⟩ := C134_step_rope hM hn h0 hF hX r0 p1
    replace s1 := s1 z1 q1
    have hle : reach M ia ib g.anchorA g.anchorB (w1.step M sc t) - g.max ≤ c * (reach M ia ib g.anchorA g.anchorB w1 - g.max) + S := by
      have e : dt * spreading M ia ib g.anchorA g.anchorB w1 ≤ (1 - c) * (g.max - reach M ia ib g.anchorA g.anchorB w1) := by
        rw [le_div_iff₀ h0] at s0
        linarith
      unfold surplus at v1
      linarith
    have hB' : (1 - c) * (reach M ia ib g.anchorA g.anchorB (w1.step M sc t) - g.max) ≤ g.maxBias * dt := by
      have h1 := mul_le_mul_of_nonneg_left hle (by linarith : (0 : K) ≤ 1 - c)
      have h2 := mul_le_mul_of_nonneg_left hB hc0
      have h3 := mul_le_mul_of_nonneg_left hSB (by linarith : (0 : K) ≤ 1 - c)
      nlinarith
    rw [free _ z1 hB'] at s1
    obtain ⟨w', a1, a2, a3⟩ := ih (w1.step M sc t) (by assumption) (by assumption) (by assumption) (by assumption) (by assumption) (by assumption)
    refine ⟨w', a1, a2, a3.trans ?_⟩
    have h1 := mul_le_mul_of_nonneg_left hle (pow_nonneg hc0 ts.length)
    have h2 : c ^ ts.length + powers c ts.length = powers c (ts.length + 1) := by
      have : ∀ n, c ^ n + powers c n = powers c (n + 1) := by
        intro n
        induction n with
        | zero => simp [powers]
        | succ n ih => rw [powers, powers, ← ih, pow_succ]; ring
      exact this _
    rw [List.length_cons, ← h2, pow_succ]
    nlinarith

/-! ## What a step adds -/

/-- **C134.** The surplus of a step is small: it is no less than what the arcs take away, and no more than what they add and the square of the way across the line, over twice the length. -/
theorem C134_surplus {M : Mth K} (hM : M.Lawful) {dt : K} {ia ib : Nat} {ca cb : V2 K} {w w' : World K}
    (ho : openness M ia ib ca cb w' = ((openness M ia ib ca cb w).add ((opening M ia ib ca cb w).scale dt)).add (swerving M dt ia ib ca cb w)) (hp : 0 < reach M ia ib ca cb w) :
    -(swerving M dt ia ib ca cb w).mag M ≤ surplus M dt ia ib ca cb w w' ∧
    (0 < reach M ia ib ca cb w + dt * spreading M ia ib ca cb w →
      surplus M dt ia ib ca cb w w' ≤ (swerving M dt ia ib ca cb w).mag M + (dt * drifting M ia ib ca cb w) ^ 2 / (2 * (reach M ia ib ca cb w + dt * spreading M ia ib ca cb w))) := by
  have hne : openness M ia ib ca cb w ≠ V2.zero := by
    intro e
    unfold reach at hp
    rw [e, mag_zero hM] at hp
    exact lt_irrefl _ hp
  have hu : (bearing M ia ib ca cb w).x ^ 2 + (bearing M ia ib ca cb w).y ^ 2 = 1 := mag_scale_inv hM _ hne
  have hx : openness M ia ib ca cb w = (bearing M ia ib ca cb w).scale (reach M ia ib ca cb w) := by
    unfold bearing
    refine V2.ext ?_ ?_ <;> simp only [V2.scale] <;> field_simp
  unfold surplus
  have hw' : reach M ia ib ca cb w' = (openness M ia ib ca cb w').mag M := rfl
  rw [hw', ho, hx]
  have hpa : spreading M ia ib ca cb w = (opening M ia ib ca cb w).dot (bearing M ia ib ca cb w) := rfl
  have hdr : drifting M ia ib ca cb w = (bearing M ia ib ca cb w).cross (opening M ia ib ca cb w) := rfl
  generalize bearing M ia ib ca cb w = n at *
  generalize opening M ia ib ca cb w = v at *
  generalize swerving M dt ia ib ca cb w = s at *
  generalize reach M ia ib ca cb w = d at *
  generalize spreading M ia ib ca cb w = p at *
  generalize drifting M ia ib ca cb w = q at *
  generalize hU : (n.scale d).add (v.scale dt) = U
  have hn1 : n.mag M ≤ 1 := mag_le hM _ _ zero_le_one (by simp only [V2.lengthSq, V2.dot]; linarith)
  have hUn : U.dot n = d + dt * p := by
    rw [← hU, hpa]
    simp only [V2.dot, V2.add, V2.scale]
    linear_combination d * hu
  have hUU : U.lengthSq = (d + dt * p) ^ 2 + (dt * q) ^ 2 := by
    have : U.lengthSq * (n.x ^ 2 + n.y ^ 2) = (U.dot n) ^ 2 + (n.cross U) ^ 2 := by
      simp only [V2.lengthSq, V2.dot, V2.cross]; ring
    rw [hu, mul_one, hUn] at this
    rw [this, hdr, ← hU]
    simp only [V2.cross, V2.add, V2.scale]; ring
  have tri : U.mag M ≤ (U.add s).mag M + s.mag M := by
    have e : U = (U.add s).add (V2.zero.sub s) := by
      refine V2.ext ?_ ?_ <;> simp only [V2.add, V2.sub, V2.zero] <;> ring
    have := mag_add_le hM (U.add s) (V2.zero.sub s)
    rw [← e, mag_neg_eq] at this
    exact this
  constructor
  · have h1 : U.dot n ≤ U.mag M := (dot_le_mag hM U n).trans (by have := mul_le_mul_of_nonneg_left hn1 (mag_nonneg hM U); linarith)
    linarith
  · intro hpos
    have h1 := mag_add_le hM U s
    have h2 : U.mag M ≤ (d + dt * p) + (dt * q) ^ 2 / (2 * (d + dt * p)) := by
      have hq : 0 ≤ (dt * q) ^ 2 / (2 * (d + dt * p)) := div_nonneg (sq_nonneg _) (by linarith)
      refine mag_le hM _ _ (by linarith) ?_
      rw [hUU]
      have hm : 2 * (d + dt * p) * ((dt * q) ^ 2 / (2 * (d + dt * p))) = (dt * q) ^ 2 := by
        have : 2 * (d + dt * p) ≠ 0 := by linarith
        field_simp
      nlinarith
    linarith

/-! ## Real numbers -/

theorem swerving_real (dt : ℝ) (ia ib : Nat) (ca cb : V2 ℝ) (w : World ℝ) : (swerving realMth dt ia ib ca cb w).mag realMth ≤ arcs dt ia ib ca cb w := by
  unfold swerving arcs
  have e : ∀ u v : V2 ℝ, u.sub v = u.add (V2.zero.sub v) := fun u v => V2.ext (by simp [V2.sub, V2.add, V2.zero]; ring) (by simp [V2.sub, V2.add, V2.zero]; ring)
  rw [e]
  refine (mag_add_le realMth_lawful _ _).trans ?_
  rw [mag_neg_eq, add_comm]
  exact add_le_add (swerve_real _ _ _) (swerve_real _ _ _)

namespace Spec
/-- Half the squares of the angles turned in a step times the arms, and half the square of the way across the line over the length: terms of the second order in the length of the step. -/
noncomputable def bends (dt : ℝ) (ia ib : Nat) (ca cb : V2 ℝ) (w : World ℝ) : ℝ :=
  arcs dt ia ib ca cb w + (dt * drifting realMth ia ib ca cb w) ^ 2 / (2 * (reach realMth ia ib ca cb w + dt * spreading realMth ia ib ca cb w))

/-- They are at most `S`, and the points do not meet. -/
def Gentle (dt : ℝ) (ia ib : Nat) (ca cb : V2 ℝ) (S : ℝ) (w : World ℝ) : Prop :=
  0 < reach realMth ia ib ca cb w + dt * spreading realMth ia ib ca cb w ∧ bends dt ia ib ca cb w ≤ S
end Spec

theorem gentle_surplus {sc : Scene ℝ} {dt : ℝ} {ia ib : Nat} {ca cb : V2 ℝ} {S : ℝ} {P : World ℝ → Prop} {Q : World ℝ → Tick ℝ → World ℝ → Prop}
    (hP : ∀ w t, P w → Q w t (w.step realMth sc t) → P (w.step realMth sc t) ∧ 0 < reach realMth ia ib ca cb (w.step realMth sc t) ∧
      openness realMth ia ib ca cb (w.step realMth sc t) = ((openness realMth ia ib ca cb w).add ((opening realMth ia ib ca cb w).scale dt)).add (swerving realMth dt ia ib ca cb w)) :
    ∀ (ticks : List (Tick ℝ)) (w : World ℝ), P w → 0 < reach realMth ia ib ca cb w → EveryStep realMth sc Q w ticks → EveryStep realMth sc (fun w _ _ => Gentle dt ia ib ca cb S w) w ticks →
      EveryStep realMth sc (fun w _ w' => |surplus realMth dt ia ib ca cb w w'| ≤ S) w ticks
  | [], _, _, _, _, _ => trivial
  | t :: ts, w, p0, hr, hq, hg => by
    obtain ⟨p1, r1, o1⟩ := hP w t p0 hq.1
    refine ⟨?_, gentle_surplus hP ts _ p1 r1 hq.2 hg.2⟩
    obtain ⟨l, u⟩ := C134_surplus realMth_lawful o1 hr
    obtain ⟨g1, g2⟩ := hg.1
    have hu := u g1
    have hs := swerving_real dt ia ib ca cb w
    unfold bends at g2
    have hq0 : 0 ≤ (dt * drifting realMth ia ib ca cb w) ^ 2 / (2 * (reach realMth ia ib ca cb w + dt * spreading realMth ia ib ca cb w)) := div_nonneg (sq_nonneg _) (by linarith)
    exact abs_le.2 ⟨by linarith, by linarith⟩

theorem powers_real {c S : ℝ} (hc0 : 0 ≤ c) (hc1 : c < 1) (hS : 0 ≤ S) (n : Nat) : S * powers c n ≤ S / (1 - c) := by
  rw [le_div_iff₀ (by linarith)]
  have h1 := powers_closed c n
  have h2 := pow_nonneg hc0 n
  have : S * powers c n * (1 - c) = S * (1 - c ^ n) := by rw [← h1]; ring
  rw [this]
  nlinarith

/-- **C134.** With real numbers: the error of a rod that is strong enough stays below `S / (1 - errorBias ^ dt)` but for what is left of its first value, where `S` bounds terms that are of the second order in the
length of the steps. -/
theorem C134_real {sc : Scene ℝ} (hn : sc.par.iterations ≠ 0) {dt : ℝ} (h0 : 0 < dt) {ia ib : Nat} {g : PinJoint ℝ} (he : 0 ≤ g.errorBias ∧ g.errorBias < 1)
    {w : World ℝ} (hw : Rodded realMth ia ib g w) (S : ℝ) (hS : 0 ≤ S) (t₀ : Tick ℝ) (ticks : List (Tick ℝ))
    (h : EveryStep realMth sc (fun w t w' => Swings sc dt ia ib w t w' ∧ RodHolds dt ia ib w' ∧ 0 < reach realMth ia ib g.anchorA g.anchorB w') w (t₀ :: ticks))
    (hs : EveryStep realMth sc (fun w _ _ => Gentle dt ia ib g.anchorA g.anchorB S w) (w.step realMth sc t₀) ticks)
    (hB : (1 - g.errorBias ^ dt) * |g.dist - reach realMth ia ib g.anchorA g.anchorB (w.step realMth sc t₀)| ≤ g.maxBias * dt) (hSB : S ≤ g.maxBias * dt) :
    ∃ w', w.run realMth sc ((t₀ :: ticks).map .step) = some w' ∧
      |g.dist - reach realMth ia ib g.anchorA g.anchorB w'| ≤
        (g.errorBias ^ dt) ^ ticks.length * |g.dist - reach realMth ia ib g.anchorA g.anchorB (w.step realMth sc t₀)| + S / (1 - g.errorBias ^ dt) := by
  have hc1 : g.errorBias ^ dt < 1 := Real.rpow_lt_one he.1 he.2 h0
  have hc0 : 0 ≤ g.errorBias ^ dt := Real.rpow_nonneg he.1 dt
  have r0 := (C134_step realMth_lawful hn h0 hw h.1.1).1
  have hsur := gentle_surplus (dt := dt) (ia := ia) (ib := ib) (ca := g.anchorA) (cb := g.anchorB) (S := S) (P := Rodded realMth ia ib g)
    (Q := fun w t w' => Swings sc dt ia ib w t w' ∧ RodHolds dt ia ib w' ∧ 0 < reach realMth ia ib g.anchorA g.anchorB w')
    (fun w t p q => ⟨(C134_step realMth_lawful hn h0 p q.1).1, q.2.2, (C134_step realMth_lawful hn h0 p q.1).2.1⟩) ticks _ r0 h.1.2.2 h.2 hs
  obtain ⟨w', a1, -, a3⟩ := C134_rod realMth_lawful hn h0 ⟨he.1, he.2.le⟩ hw S hS t₀ ticks h hsur hB hSB
  exact ⟨w', a1, a3.trans (add_le_add le_rfl (powers_real hc0 hc1 hS _))⟩

/-- **C134.** The same for a rope while it is stretched. -/
theorem C134_real_rope {sc : Scene ℝ} (hn : sc.par.iterations ≠ 0) {dt : ℝ} (h0 : 0 < dt) {ia ib : Nat} {g : SlideJoint ℝ} (he : 0 ≤ g.errorBias ∧ g.errorBias < 1) (hF : 0 ≤ g.maxForce) (hX : 0 ≤ g.max)
    {w : World ℝ} (hw : Roped realMth ia ib g w) (S : ℝ) (hS : 0 ≤ S) (t₀ : Tick ℝ) (ticks : List (Tick ℝ))
    (h : EveryStep realMth sc (fun w t w' => Swings sc dt ia ib w t w' ∧ RopeHolds dt ia ib w' ∧ g.max < reach realMth ia ib g.anchorA g.anchorB w') w (t₀ :: ticks))
    (hs : EveryStep realMth sc (fun w _ _ => Gentle dt ia ib g.anchorA g.anchorB S w) (w.step realMth sc t₀) ticks)
    (hB : (1 - g.errorBias ^ dt) * (reach realMth ia ib g.anchorA g.anchorB (w.step realMth sc t₀) - g.max) ≤ g.maxBias * dt) (hSB : S ≤ g.maxBias * dt) :
    ∃ w', w.run realMth sc ((t₀ :: ticks).map .step) = some w' ∧
      reach realMth ia ib g.anchorA g.anchorB w' - g.max ≤
        (g.errorBias ^ dt) ^ ticks.length * (reach realMth ia ib g.anchorA g.anchorB (w.step realMth sc t₀) - g.max) + S / (1 - g.errorBias ^ dt) := by
  have hc1 : g.errorBias ^ dt < 1 := Real.rpow_lt_one he.1 he.2 h0
  have hc0 : 0 ≤ g.errorBias ^ dt := Real.rpow_nonneg he.1 dt
  have r0 := (C134_step_rope realMth_lawful hn h0 hF hX hw h.1.1).1
  have hsur := gentle_surplus (dt := dt) (ia := ia) (ib := ib) (ca := g.anchorA) (cb := g.anchorB) (S := S) (P := Roped realMth ia ib g)
    (Q := fun w t w' => Swings sc dt ia ib w t w' ∧ RopeHolds dt ia ib w' ∧ g.max < reach realMth ia ib g.anchorA g.anchorB w')
    (fun w t p q => ⟨(C134_step_rope realMth_lawful hn h0 hF hX p q.1).1, lt_of_le_of_lt hX q.2.2, (C134_step_rope realMth_lawful hn h0 hF hX p q.1).2.1⟩) ticks _ r0 (lt_of_le_of_lt hX h.1.2.2) h.2 hs
  obtain ⟨w', a1, -, a3⟩ := C134_rope realMth_lawful hn h0 ⟨he.1, he.2.le⟩ hF hX hw S hS t₀ ticks h (everyStep_mono (fun _ _ _ hp => (abs_le.1 hp).2) _ _ hsur) hB hSB
  exact ⟨w', a1, a3.trans (add_le_add le_rfl (powers_real hc0 hc1 hS _))⟩

/-! ## Examples: two bodies five lengths apart that are to be one length apart, one of them turning, the other pushed by a torque; the first step and two more -/

def exTied (k : Nat) : Body ℚ :=
  if k = 0 then { Body.blank with m := 1, mInv := 1, i := 1, iInv := 1, w := 3, tr := ⟨1, 0, 0, 1, 0, 0⟩ }
  else { Body.blank with m := 1, mInv := 1/2, i := 2, iInv := 1/2, torque := 2, p := ⟨5, 0⟩, tr := ⟨1, 0, 0, 1, 5, 0⟩ }
def exTie (jt : Joint ℚ) : World ℚ := { World.init exTied (fun _ => ⟨.circle ⟨⟨0, 0⟩, ⟨0, 0⟩, 1⟩, ⟨0, 0, 0, 0⟩, 0, ⟨1, 0⟩⟩) with joints := [⟨0, 1, jt⟩] }
def exRod : PinJoint ℚ := ⟨⟨1000, 1/2, 100⟩, ⟨0, 0⟩, ⟨0, 0⟩, 1, ⟨0, 0⟩, ⟨0, 0⟩, ⟨0, 0⟩, 0, 0, 0⟩
def exRope : SlideJoint ℚ := ⟨⟨1000, 1/2, 100⟩, ⟨0, 0⟩, ⟨0, 0⟩, 0, 1, ⟨0, 0⟩, ⟨0, 0⟩, ⟨0, 0⟩, 0, 0, 0⟩

def exTieForce (ls : List (Link (Joint ℚ))) : ℚ × ℚ :=
  match ls with
  | [⟨_, _, .pin g⟩] => (g.jnAcc, g.maxForce)
  | [⟨_, _, .slide g⟩] => (g.jnAcc, g.maxForce)
  | _ => (0, 0)

theorem exRodHolds {w : World ℚ} (h : let f := exTieForce (w.joints.filter fun l => (l.ia == 0 || l.ia == 1) && (l.ib == 0 || l.ib == 1)); |f.1| < f.2 * (1/4)) : RodHolds (1/4) 0 1 w := by
  intro g' hj
  have e : (g'.jnAcc, g'.maxForce) = _ := congrArg exTieForce hj.joint.symm
  have e1 := congrArg Prod.fst e
  have e2 := congrArg Prod.snd e
  dsimp only at e1 e2
  rw [e1, e2]
  exact h

theorem exRopeHolds {w : World ℚ} (h : let f := exTieForce (w.joints.filter fun l => (l.ia == 0 || l.ia == 1) && (l.ib == 0 || l.ib == 1)); -(f.2 * (1/4)) < f.1) : RopeHolds (1/4) 0 1 w := by
  intro g' hj
  have e : (g'.jnAcc, g'.maxForce) = _ := congrArg exTieForce hj.joint.symm
  have e1 := congrArg Prod.fst e
  have e2 := congrArg Prod.snd e
  dsimp only at e1 e2
  rw [e1, e2]
  exact h

example : Rodded toyMth 0 1 exRod (exTie (.pin exRod)) ∧
    EveryStep toyMth exBalls3 (fun w t w' => Swings exBalls3 (1/4) 0 1 w t w' ∧ RodHolds (1/4) 0 1 w' ∧ 0 < reach toyMth 0 1 exRod.anchorA exRod.anchorB w') (exTie (.pin exRod)) [exSpinTick, exSpinTick, exSpinTick] ∧
    (let w1 := (exTie (.pin exRod)).step toyMth exBalls3 exSpinTick
     EveryStep toyMth exBalls3 (fun w t w' => |surplus toyMth (1/4) 0 1 exRod.anchorA exRod.anchorB w w'| ≤ 0) w1 [exSpinTick, exSpinTick] ∧
     (1 - toyMth.pow exRod.errorBias (1/4)) * |exRod.dist - reach toyMth 0 1 exRod.anchorA exRod.anchorB w1| ≤ exRod.maxBias * (1/4) ∧
     reach toyMth 0 1 exRod.anchorA exRod.anchorB w1 = 5 ∧ reach toyMth 0 1 exRod.anchorA exRod.anchorB ((w1.step toyMth exBalls3 exSpinTick).step toyMth exBalls3 exSpinTick) = 2) := by
  refine ⟨⟨⟨by unfold Seated Placed; decide +kernel, by unfold Movable; decide +kernel⟩, ⟨exRod, ⟨by decide, rfl⟩, rfl, rfl, rfl, rfl⟩⟩, ⟨⟨exSwings (by decide +kernel) (by decide +kernel), exRodHolds (by decide +kernel), by decide +kernel⟩,
    ⟨exSwings (by decide +kernel) (by decide +kernel), exRodHolds (by decide +kernel), by decide +kernel⟩, ⟨exSwings (by decide +kernel) (by decide +kernel), exRodHolds (by decide +kernel), by decide +kernel⟩, trivial⟩,
    ⟨by decide +kernel, by decide +kernel, trivial⟩, by decide +kernel, by decide +kernel, by decide +kernel⟩

example : Roped toyMth 0 1 exRope (exTie (.slide exRope)) ∧
    EveryStep toyMth exBalls3 (fun w t w' => Swings exBalls3 (1/4) 0 1 w t w' ∧ RopeHolds (1/4) 0 1 w' ∧ exRope.max < reach toyMth 0 1 exRope.anchorA exRope.anchorB w') (exTie (.slide exRope)) [exSpinTick, exSpinTick, exSpinTick] ∧
    (let w1 := (exTie (.slide exRope)).step toyMth exBalls3 exSpinTick
     EveryStep toyMth exBalls3 (fun w t w' => surplus toyMth (1/4) 0 1 exRope.anchorA exRope.anchorB w w' ≤ 0) w1 [exSpinTick, exSpinTick] ∧
     (1 - toyMth.pow exRope.errorBias (1/4)) * (reach toyMth 0 1 exRope.anchorA exRope.anchorB w1 - exRope.max) ≤ exRope.maxBias * (1/4) ∧
     reach toyMth 0 1 exRope.anchorA exRope.anchorB w1 = 5 ∧ reach toyMth 0 1 exRope.anchorA exRope.anchorB ((w1.step toyMth exBalls3 exSpinTick).step toyMth exBalls3 exSpinTick) = 2) := by
  refine ⟨⟨⟨by unfold Seated Placed; decide +kernel, by unfold Movable; decide +kernel⟩, ⟨exRope, ⟨by decide, rfl⟩, rfl, rfl, rfl, rfl, rfl⟩⟩, ⟨⟨exSwings (by decide +kernel) (by decide +kernel), exRopeHolds (by decide +kernel), by decide +kernel⟩,
    ⟨exSwings (by decide +kernel) (by decide +kernel), exRopeHolds (by decide +kernel), by decide +kernel⟩, ⟨exSwings (by decide +kernel) (by decide +kernel), exRopeHolds (by decide +kernel), by decide +kernel⟩, trivial⟩,
    ⟨by decide +kernel, by decide +kernel, trivial⟩, by decide +kernel, by decide +kernel, by decide +kernel⟩

end Cm
