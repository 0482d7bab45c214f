import Verif.Props.RotarySpring
/-! # C136: bodies on springs sweep equal areas, and along a line they settle as their numbers say -/
set_option linter.unusedSectionVars false
set_option linter.unusedSimpArgs false
set_option linter.unusedVariables false

namespace Cm
open Spec
variable {K : Type} [Field K] [LinearOrder K] [IsStrictOrderedRing K]

namespace Spec
/-- Where the one body is, seen from the other. -/
def apart (ia ib : Nat) (w : World K) : V2 K := (w.bodies ib).p.sub (w.bodies ia).p

/-- How it moves, seen from there. -/
def leaving (ia ib : Nat) (w : World K) : V2 K := (w.bodies ib).v.sub (w.bodies ia).v

/-- The centres of gravity of the bodies are joined by a spring with the given force and damping, and `m` is the sum of their inverse masses. -/
structure Coiled (ia ib : Nat) (f : K → K) (c m : K) (w : World K) : Prop where
  joint : ∃ s, JoinedBy w ia ib (.spring s) ∧ s.forceFn = f ∧ s.damping = c ∧ s.anchorA = (w.bodies ia).cog ∧ s.anchorB = (w.bodies ib).cog
  calm : (w.bodies ia).vBias = V2.zero ∧ (w.bodies ib).vBias = V2.zero
  mass : (w.bodies ia).mInv + (w.bodies ib).mInv = m

/-- Apart from the spring, the body `k` falls freely with the acceleration `g`, or it is fixed, and `g` is zero. -/
def Falls (par : Params K) (t : Tick K) (w : World K) (k : Nat) (g : V2 K) : Prop :=
  k ∈ t.dyn ∧ (w.bodies k).type par.inf ≠ .kinematic ∧ (w.bodies k).force = V2.zero ∧ g = par.gravity ∨
    (w.bodies k).mInv = 0 ∧ (w.bodies k).v = V2.zero ∧ g = V2.zero ∧ (k ∉ t.dyn ∨ (w.bodies k).type par.inf = .kinematic)

/-- The step from `w` to `w'` has the length `dt`, and nothing but the spring moves the bodies against each other. -/
structure Draws (sc : Scene K) (dt : K) (ia ib : Nat) (w : World K) (t : Tick K) (w' : World K) : Prop where
  length : t.dt = dt
  falls : ∃ g, Falls sc.par t w ia g ∧ Falls sc.par t w ib g
  free : Unaffected sc ia ib w w'

/-- The direction of a vector; that of zero is zero. -/
def along (M : Mth K) (d : V2 K) : V2 K := if d.mag M = 0 then V2.zero else d.scale (1 / d.mag M)
end Spec

/-! ## The solver -/

/-- Nothing but speeds, spins and forces differ. -/
def Unmoved (A a : Body K) : Prop := a.p = A.p ∧ a.cog = A.cog ∧ a.mInv = A.mInv ∧ a.iInv = A.iInv ∧ a.vBias = A.vBias

theorem unmoved_refl (a : Body K) : Unmoved a a := ⟨rfl, rfl, rfl, rfl, rfl⟩
theorem unmoved_trans {a b c : Body K} (h : Unmoved a b) (h' : Unmoved b c) : Unmoved a c := by
  obtain ⟨h1, h2, h3, h4, h5⟩ := h
  obtain ⟨k1, k2, k3, k4, k5⟩ := h'
  exact ⟨k1.trans h1, k2.trans h2, k3.trans h3, k4.trans h4, k5.trans h5⟩
theorem unmoved_push (a b : Body K) (r1 r2 j : V2 K) : Unmoved a (applyImpulses a b r1 r2 j).1 ∧ Unmoved b (applyImpulses a b r1 r2 j).2 :=
  ⟨⟨rfl, rfl, rfl, rfl, rfl⟩, rfl, rfl, rfl, rfl, rfl⟩

theorem push_leaving (a b : Body K) (r1 r2 j : V2 K) {m : K} (h : a.mInv + b.mInv = m) :
    (applyImpulses a b r1 r2 j).2.v.sub (applyImpulses a b r1 r2 j).1.v = (b.v.sub a.v).add (j.scale m) := by
  unfold applyImpulses
  refine V2.ext ?_ ?_ <;> simp only [V2.add, V2.sub, V2.scale] <;> rw [← h] <;> ring

theorem centre_speed (a b : Body K) (n : V2 K) : normalRelativeVelocity a b V2.zero V2.zero n = (b.v.sub a.v).dot n := by
  unfold normalRelativeVelocity relativeVelocity
  simp only [V2.add, V2.sub, V2.scale, V2.dot, V2.perp, V2.zero]
  ring

theorem spring_iter (M : Mth K) (dt : K) {m : K} (hm : m ≠ 0) : ∀ (n : Nat) (a b : Body K) (s : DampedSpring K), a.mInv + b.mInv = m → s.r1 = V2.zero → s.r2 = V2.zero → s.targetVrn = (b.v.sub a.v).dot s.n →
    let r := (fun x : Body K × Body K × Joint K => x.2.2.applyImpulse M x.1 x.2.1 dt)^[n] (a, b, .spring s)
    Unmoved a r.1 ∧ Unmoved b r.2.1 ∧ r.2.1.v.sub r.1.v = b.v.sub a.v ∧ ∃ s', r.2.2 = .spring s' ∧ s'.forceFn = s.forceFn ∧ s'.damping = s.damping ∧ s'.anchorA = s.anchorA ∧ s'.anchorB = s.anchorB := by
  intro n
  induction n with
  | zero => intro a b s _ _ _ _; exact ⟨unmoved_refl a, unmoved_refl b, rfl, s, rfl, rfl, rfl, rfl, rfl⟩
  | succ n ih =>
    intro a b s h1 h2 h3 h4
    have e0 : normalRelativeVelocity a b s.r1 s.r2 s.n = (b.v.sub a.v).dot s.n := by rw [h2, h3]; exact centre_speed a b s.n
    generalize hx : (s.targetVrn - normalRelativeVelocity a b s.r1 s.r2 s.n) * s.vCoef = x
    have h5 : x = 0 := by rw [← hx, e0, h4, sub_self, zero_mul]
    have h6 := push_leaving a b s.r1 s.r2 (s.n.scale (x * s.nMass)) h1
    have h7 : (b.v.sub a.v).add ((s.n.scale (x * s.nMass)).scale m) = b.v.sub a.v := by
      rw [h5]
      refine V2.ext ?_ ?_ <;> simp [V2.add, V2.scale]
    rw [h7] at h6
    have hst := unmoved_push a b s.r1 s.r2 (s.n.scale (x * s.nMass))
    have he : (Joint.spring s).applyImpulse M a b dt = ((applyImpulses a b s.r1 s.r2 (s.n.scale (x * s.nMass))).1, (applyImpulses a b s.r1 s.r2 (s.n.scale (x * s.nMass))).2,
        Joint.spring { s with targetVrn := normalRelativeVelocity a b s.r1 s.r2 s.n + x, jAcc := s.jAcc + x * s.nMass }) := by rw [← hx]; rfl
    generalize applyImpulses a b s.r1 s.r2 (s.n.scale (x * s.nMass)) = ab at *
    obtain ⟨p, q, e, s', z⟩ := ih ab.1 ab.2 { s with targetVrn := normalRelativeVelocity a b s.r1 s.r2 s.n + x, jAcc := s.jAcc + x * s.nMass } (by rw [hst.1.2.2.1, hst.2.2.2.1]; exact h1) h2 h3 (by
      dsimp only
      rw [h5, h6, e0, add_zero])
    rw [Function.iterate_succ_apply]
    dsimp only
    rw [he]
    exact ⟨unmoved_trans hst.1 p, unmoved_trans hst.2 q, e.trans h6, s', z⟩

theorem spring_iters (M : Mth K) (dt : K) {m : K} (hm : m ≠ 0) {n : Nat} (hn : n ≠ 0) (a b : Body K) (s : DampedSpring K) (h1 : a.mInv + b.mInv = m) (h2 : s.r1 = V2.zero) (h3 : s.r2 = V2.zero)
    (hu : s.n.dot s.n = 1 ∨ s.n = V2.zero) (h4 : s.targetVrn = 0) (h5 : s.nMass = 1 / m) :
    let r := (fun x : Body K × Body K × Joint K => x.2.2.applyImpulse M x.1 x.2.1 dt)^[n] (a, b, .spring s)
    Unmoved a r.1 ∧ Unmoved b r.2.1 ∧ r.2.1.v.sub r.1.v = (b.v.sub a.v).sub (s.n.scale (s.vCoef * (b.v.sub a.v).dot s.n)) ∧
      ∃ s', r.2.2 = .spring s' ∧ s'.forceFn = s.forceFn ∧ s'.damping = s.damping ∧ s'.anchorA = s.anchorA ∧ s'.anchorB = s.anchorB := by
  obtain ⟨n, rfl⟩ := Nat.exists_eq_succ_of_ne_zero hn
  have e0 : normalRelativeVelocity a b s.r1 s.r2 s.n = (b.v.sub a.v).dot s.n := by rw [h2, h3]; exact centre_speed a b s.n
  generalize hx : (s.targetVrn - normalRelativeVelocity a b s.r1 s.r2 s.n) * s.vCoef = x
  have h6 := push_leaving a b s.r1 s.r2 (s.n.scale (x * s.nMass)) h1
  have hst := unmoved_push a b s.r1 s.r2 (s.n.scale (x * s.nMass))
  have he : (Joint.spring s).applyImpulse M a b dt = ((applyImpulses a b s.r1 s.r2 (s.n.scale (x * s.nMass))).1, (applyImpulses a b s.r1 s.r2 (s.n.scale (x * s.nMass))).2,
      .spring { s with targetVrn := normalRelativeVelocity a b s.r1 s.r2 s.n + x, jAcc := s.jAcc + x * s.nMass }) := by rw [← hx]; rfl
  generalize applyImpulses a b s.r1 s.r2 (s.n.scale (x * s.nMass)) = ab at *
  have hx' : x = -(s.vCoef * (b.v.sub a.v).dot s.n) := by rw [← hx, h4, e0]; ring
  have h7 : ab.2.v.sub ab.1.v = (b.v.sub a.v).add (s.n.scale x) := by
    rw [h6, h5]
    refine V2.ext ?_ ?_ <;> simp only [V2.add, V2.scale] <;> field_simp
  obtain ⟨p, q, e, s', z⟩ := spring_iter M dt hm n ab.1 ab.2 { s with targetVrn := normalRelativeVelocity a b s.r1 s.r2 s.n + x, jAcc := s.jAcc + x * s.nMass } (by rw [hst.1.2.2.1, hst.2.2.2.1]; exact h1) h2 h3 (by
    dsimp only
    rw [h7, e0]
    rcases hu with hu | hu
    · have : ((b.v.sub a.v).add (s.n.scale x)).dot s.n = (b.v.sub a.v).dot s.n + x * s.n.dot s.n := by simp only [V2.add, V2.scale, V2.dot]; ring
      rw [this, hu, mul_one]
    · rw [hx', hu]
      simp [V2.add, V2.sub, V2.scale, V2.dot, V2.zero])
  rw [Function.iterate_succ_apply]
  dsimp only
  rw [he]
  refine ⟨unmoved_trans hst.1 p, unmoved_trans hst.2 q, ?_, s', z⟩
  rw [e, h7, hx']
  refine V2.ext ?_ ?_ <;> simp only [V2.add, V2.sub, V2.scale] <;> ring

/-- What becomes of a body that a spring pushes with the impulse `j` before its speed is updated. -/
theorem drawn_body {M : Mth K} {par : Params K} {t : Tick K} {w : World K} {k : Nat} {g : V2 K} (h : Falls par t w k g) (hb : (w.bodies k).vBias = V2.zero) (x : Body K) (j : V2 K)
    (hs : Unmoved (placed M t.dt t.dyn k (w.bodies k)) x) (hf : x.m = (placed M t.dt t.dyn k (w.bodies k)).m ∧ x.force = (placed M t.dt t.dyn k (w.bodies k)).force ∧ x.type par.inf = (placed M t.dt t.dyn k (w.bodies k)).type par.inf)
    (hv : x.v = (placed M t.dt t.dyn k (w.bodies k)).v.add (j.scale (placed M t.dt t.dyn k (w.bodies k)).mInv)) :
    let y := if k ∈ t.dyn then x.updateVelocity par.inf par.gravity (M.pow par.damping t.dt) t.dt else x
    y.v = (((w.bodies k).v.add (j.scale (w.bodies k).mInv)).scale (M.pow par.damping t.dt)).add (g.scale t.dt) ∧
      y.p = (w.bodies k).p.add ((w.bodies k).v.scale t.dt) ∧ y.cog = (w.bodies k).cog ∧ y.mInv = (w.bodies k).mInv ∧ y.vBias = V2.zero := by
  obtain ⟨s1, s2, s3, s4, s5⟩ := hs
  obtain ⟨f1, f2, f3⟩ := hf
  by_cases hk : k ∈ t.dyn
  · have e : placed M t.dt t.dyn k (w.bodies k) = (w.bodies k).updatePosition M t.dt := by unfold placed; rw [if_pos hk]
    rw [e] at hv s1 s2 s3 s4 s5 f1 f2 f3
    rw [if_pos hk]
    have ep : x.p = (w.bodies k).p.add ((w.bodies k).v.scale t.dt) := by
      rw [s1]
      show (w.bodies k).p.add (((w.bodies k).v.add (w.bodies k).vBias).scale t.dt) = _
      rw [hb]
      refine V2.ext ?_ ?_ <;> simp [V2.add, V2.scale, V2.zero]
    change x.v = (w.bodies k).v.add (j.scale (w.bodies k).mInv) at hv
    change x.force = (w.bodies k).force at f2
    change x.type par.inf = (w.bodies k).type par.inf at f3
    change x.mInv = (w.bodies k).mInv at s3
    unfold Body.updateVelocity
    rw [f3]
    rcases h with ⟨-, h2, h3, rfl⟩ | ⟨h1, h2, rfl, h4⟩
    · rw [if_neg h2]
      refine ⟨?_, ep, s2, s3, s5⟩
      show (x.v.scale _).add ((par.gravity.add (x.force.scale x.mInv)).scale t.dt) = _
      rw [hv, f2, h3]
      refine V2.ext ?_ ?_ <;> simp only [V2.add, V2.scale, V2.zero] <;> ring
    · rw [if_pos (h4.resolve_left (fun hh => hh hk))]
      refine ⟨?_, ep, s2, s3, s5⟩
      rw [hv, h1, h2]
      refine V2.ext ?_ ?_ <;> simp only [V2.add, V2.scale, V2.zero] <;> ring
  · have e : placed M t.dt t.dyn k (w.bodies k) = w.bodies k := by unfold placed; rw [if_neg hk]
    rw [e] at hv s1 s2 s3 s4 s5 f1 f2 f3
    rw [if_neg hk]
    obtain ⟨h1, h2, rfl, -⟩ := h.resolve_left (fun hh => hk hh.1)
    refine ⟨?_, ?_, s2, s3, s5.trans hb⟩
    · rw [hv, h1, h2]
      refine V2.ext ?_ ?_ <;> simp only [V2.add, V2.scale, V2.zero] <;> ring
    · rw [s1, h2]
      refine V2.ext ?_ ?_ <;> simp [V2.add, V2.scale, V2.zero]

theorem centre_offset (b : Body K) : anchorOffset b b.cog = V2.zero := by
  unfold anchorOffset Transform.applyVector
  refine V2.ext ?_ ?_ <;> simp [V2.sub, V2.zero]

theorem along_unit {M : Mth K} (hM : M.Lawful) (d : V2 K) : (along M d).dot (along M d) = 1 ∨ along M d = V2.zero := by
  unfold along
  split
  · exact .inr rfl
  · rename_i h
    left
    have := mag_sq hM d
    have e : (d.scale (1 / d.mag M)).dot (d.scale (1 / d.mag M)) = d.lengthSq / (d.mag M * d.mag M) := by
      simp only [V2.scale, V2.dot, V2.lengthSq]; field_simp
    rw [e, ← this, div_self (mul_ne_zero h h)]

/-- **C136.** One step of two bodies whose centres are joined by a spring, with any force function: the place changes by the speed, and then the speed is changed along the line only. The number of iterations does not matter. -/
theorem C136_step {M : Mth K} (hM : M.Lawful) {sc : Scene K} (hn : sc.par.iterations ≠ 0) {dt : K} (h0 : 0 < dt) {ia ib : Nat} {f : K → K} {c m : K} (hm0 : 0 < m) {w : World K} {t : Tick K} (hw : Coiled ia ib f c m w)
    (h : Draws sc dt ia ib w t (w.step M sc t)) :
    let w' := w.step M sc t
    let n := along M (apart ia ib w')
    let u := ((leaving ia ib w).add (n.scale (f ((apart ia ib w').mag M) * dt * m))).scale (M.pow sc.par.damping dt)
    Coiled ia ib f c m w' ∧ apart ia ib w' = (apart ia ib w).add ((leaving ia ib w).scale dt) ∧ leaving ia ib w' = u.sub (n.scale ((1 - M.exp (-c * dt * m)) * u.dot n)) := by
  intro w' n u
  obtain rfl := h.length
  obtain ⟨⟨s, j1, c1, c2, c3, c4⟩, ⟨ba, bb⟩, hm⟩ := hw
  obtain ⟨g, ga, gb⟩ := h.falls
  have hmov : ¬ (Immovable (w.bodies ia) ∧ Immovable (w.bodies ib)) := by
    rintro ⟨i1, i2⟩
    rw [i1.1, i2.1, add_zero] at hm
    exact hm0.ne hm
  obtain ⟨ea, eb, ej⟩ := only_joint h0.ne' j1 h.free hmov
  generalize hA : placed M t.dt t.dyn ia (w.bodies ia) = A
  generalize hB : placed M t.dt t.dyn ib (w.bodies ib) = B
  have mA : A.mInv = (w.bodies ia).mInv := by rw [← hA]; unfold placed; split <;> rfl
  have mB : B.mInv = (w.bodies ib).mInv := by rw [← hB]; unfold placed; split <;> rfl
  have cA : A.cog = (w.bodies ia).cog := by rw [← hA]; unfold placed; split <;> rfl
  have cB : B.cog = (w.bodies ib).cog := by rw [← hB]; unfold placed; split <;> rfl
  have oA : anchorOffset A s.anchorA = V2.zero := by rw [c3, ← cA]; exact centre_offset A
  have oB : anchorOffset B s.anchorB = V2.zero := by rw [c4, ← cB]; exact centre_offset B
  have hd : (B.p.add (anchorOffset B s.anchorB)).sub (A.p.add (anchorOffset A s.anchorA)) = B.p.sub A.p := by
    rw [oA, oB]; refine V2.ext ?_ ?_ <;> simp [V2.add, V2.sub, V2.zero]
  have hn' : (if (B.p.sub A.p).mag M ≠ 0 then (B.p.sub A.p).scale (1 / (B.p.sub A.p).mag M) else (B.p.sub A.p).scale (1 / sc.par.inf)) = along M (B.p.sub A.p) := by
    unfold along
    by_cases hz : (B.p.sub A.p).mag M = 0
    · rw [if_neg (not_not.2 hz), if_pos hz]
      have h1 := mag_sq hM (B.p.sub A.p)
      rw [hz, mul_zero] at h1
      generalize B.p.sub A.p = d at h1
      have h2 : d.x * d.x + d.y * d.y = 0 := h1.symm
      have hx : d.x = 0 := by nlinarith [mul_self_nonneg d.x, mul_self_nonneg d.y]
      have hy : d.y = 0 := by nlinarith [mul_self_nonneg d.x, mul_self_nonneg d.y]
      refine V2.ext ?_ ?_ <;> simp [V2.scale, V2.zero, hx, hy]
    · rw [if_pos hz, if_neg hz]
  generalize hN : along M (B.p.sub A.p) = N at hn'
  have hk : kScalar A B V2.zero V2.zero N = m := by
    unfold kScalar kScalarBody
    rw [mA, mB, ← hm]
    simp only [V2.cross, V2.zero]
    ring
  generalize hJ : f ((B.p.sub A.p).mag M) * t.dt = J
  have hya := drawn_body (M := M) ga ba (applyImpulses A B V2.zero V2.zero (N.scale J)).1 (N.scale (-J)) (by rw [hA]; exact (unmoved_push A B V2.zero V2.zero (N.scale J)).1) (by rw [hA]; exact ⟨rfl, rfl, rfl⟩)
    (by rw [hA]; refine V2.ext ?_ ?_ <;> simp only [applyImpulses, V2.add, V2.scale] <;> ring)
  have hyb := drawn_body (M := M) gb bb (applyImpulses A B V2.zero V2.zero (N.scale J)).2 (N.scale J) (by rw [hB]; exact (unmoved_push A B V2.zero V2.zero (N.scale J)).2) (by rw [hB]; exact ⟨rfl, rfl, rfl⟩)
    (by rw [hB]; refine V2.ext ?_ ?_ <;> simp only [applyImpulses, V2.add, V2.scale])
  have hpre : (Joint.spring s).preStep M sc.par.inf A B t.dt = ((applyImpulses A B V2.zero V2.zero (N.scale J)).1, (applyImpulses A B V2.zero V2.zero (N.scale J)).2,
      .spring { s with r1 := V2.zero, r2 := V2.zero, n := N, nMass := 1 / m, targetVrn := 0, vCoef := 1 - M.exp (-s.damping * t.dt * m), jAcc := J }) := by
    unfold Joint.preStep DampedSpring.preStep
    dsimp only
    rw [hd, hn', oA, oB, hk, c1, hJ]
  have hr : jointSolve M sc.par w.prevDT t.dt t.dyn ia ib (w.bodies ia) (w.bodies ib) (.spring s) = (fun x : Body K × Body K × Joint K => x.2.2.applyImpulse M x.1 x.2.1 t.dt)^[sc.par.iterations]
      (if ia ∈ t.dyn then (applyImpulses A B V2.zero V2.zero (N.scale J)).1.updateVelocity sc.par.inf sc.par.gravity (M.pow sc.par.damping t.dt) t.dt else (applyImpulses A B V2.zero V2.zero (N.scale J)).1,
       if ib ∈ t.dyn then (applyImpulses A B V2.zero V2.zero (N.scale J)).2.updateVelocity sc.par.inf sc.par.gravity (M.pow sc.par.damping t.dt) t.dt else (applyImpulses A B V2.zero V2.zero (N.scale J)).2,
       .spring { s with r1 := V2.zero, r2 := V2.zero, n := N, nMass := 1 / m, targetVrn := 0, vCoef := 1 - M.exp (-s.damping * t.dt * m), jAcc := J }) := by
    have hA' : (if ia ∈ t.dyn then (w.bodies ia).updatePosition M t.dt else w.bodies ia) = A := hA
    have hB' : (if ib ∈ t.dyn then (w.bodies ib).updatePosition M t.dt else w.bodies ib) = B := hB
    unfold jointSolve
    rw [hA', hB', hpre]
    rfl
  generalize (if ia ∈ t.dyn then (applyImpulses A B V2.zero V2.zero (N.scale J)).1.updateVelocity sc.par.inf sc.par.gravity (M.pow sc.par.damping t.dt) t.dt else (applyImpulses A B V2.zero V2.zero (N.scale J)).1) = ya at *
  generalize (if ib ∈ t.dyn then (applyImpulses A B V2.zero V2.zero (N.scale J)).2.updateVelocity sc.par.inf sc.par.gravity (M.pow sc.par.damping t.dt) t.dt else (applyImpulses A B V2.zero V2.zero (N.scale J)).2) = yb at *
  obtain ⟨ya1, ya2, ya3, ya4, ya5⟩ := hya
  obtain ⟨yb1, yb2, yb3, yb4, yb5⟩ := hyb
  obtain ⟨pa, pb, e, s', z1, z2, z3, z4, z5⟩ := spring_iters M t.dt hm0.ne' hn ya yb
    { s with r1 := V2.zero, r2 := V2.zero, n := N, nMass := 1 / m, targetVrn := 0, vCoef := 1 - M.exp (-s.damping * t.dt * m), jAcc := J } (by rw [ya4, yb4]; exact hm) rfl rfl (by rw [← hN]; exact along_unit hM _) rfl rfl
  rw [← hr] at pa pb e z1
  rw [z1] at ej
  rw [← ea] at pa e
  rw [← eb] at pb e
  have ta : (w'.bodies ia).p = (w.bodies ia).p.add ((w.bodies ia).v.scale t.dt) := pa.1.trans ya2
  have tb : (w'.bodies ib).p = (w.bodies ib).p.add ((w.bodies ib).v.scale t.dt) := pb.1.trans yb2
  have tA : A.p = (w'.bodies ia).p := by
    rw [ta, ← hA]
    exact (drawn_body (M := M) ga ba _ V2.zero (unmoved_refl _) ⟨rfl, rfl, rfl⟩ (by refine V2.ext ?_ ?_ <;> simp [V2.add, V2.scale, V2.zero])).2.1 ▸ (by split <;> [(unfold Body.updateVelocity; split <;> rfl); rfl])
  have tB : B.p = (w'.bodies ib).p := by
    rw [tb, ← hB]
    exact (drawn_body (M := M) gb bb _ V2.zero (unmoved_refl _) ⟨rfl, rfl, rfl⟩ (by refine V2.ext ?_ ?_ <;> simp [V2.add, V2.scale, V2.zero])).2.1 ▸ (by split <;> [(unfold Body.updateVelocity; split <;> rfl); rfl])
  have hN' : N = n := by rw [← hN, tA, tB]; rfl
  have hJ' : J = f ((apart ia ib w').mag M) * t.dt := by rw [← hJ, tA, tB]; rfl
  refine ⟨⟨⟨s', ej, z2.trans c1, z3.trans c2, ?_, ?_⟩, ⟨pa.2.2.2.2.trans ya5, pb.2.2.2.2.trans yb5⟩, ?_⟩, ?_, ?_⟩
  · rw [z4]; exact c3.trans (pa.2.1.trans ya3).symm
  · rw [z5]; exact c4.trans (pb.2.1.trans yb3).symm
  · rw [pa.2.2.1, pb.2.2.1, ya4, yb4]; exact hm
  · unfold apart leaving
    rw [ta, tb]
    refine V2.ext ?_ ?_ <;> simp only [V2.add, V2.sub, V2.scale] <;> ring
  · have hu : yb.v.sub ya.v = u := by
      rw [ya1, yb1]
      show _ = ((leaving ia ib w).add (n.scale (f ((apart ia ib w').mag M) * t.dt * m))).scale (M.pow sc.par.damping t.dt)
      rw [← hN', ← hJ', ← hm]
      unfold leaving
      refine V2.ext ?_ ?_ <;> simp only [V2.add, V2.sub, V2.scale] <;> ring
    show (w'.bodies ib).v.sub (w'.bodies ia).v = _
    rw [e, hu]
    dsimp only
    rw [hN', c2]

/-! ## Equal areas -/

theorem along_cross (M : Mth K) (d : V2 K) : d.cross (along M d) = 0 := by
  unfold along
  split <;> simp only [V2.cross, V2.scale, V2.zero] <;> ring

/-- **C136.** Kepler's second law: whatever the force of the spring and its damping, the area that the line between the bodies sweeps in a step is the same in every step, but for the damping of the space. -/
theorem C136_areas {M : Mth K} (hM : M.Lawful) {sc : Scene K} (hn : sc.par.iterations ≠ 0) {dt : K} (h0 : 0 < dt) {ia ib : Nat} {f : K → K} {c m : K} (hm0 : 0 < m) {w : World K} (hw : Coiled ia ib f c m w) (ticks : List (Tick K))
    (h : EveryStep M sc (Draws sc dt ia ib) w ticks) :
    ∃ w', w.run M sc (ticks.map .step) = some w' ∧ (apart ia ib w').cross (leaving ia ib w') = M.pow sc.par.damping dt ^ ticks.length * (apart ia ib w).cross (leaving ia ib w) := by
  induction ticks generalizing w with
  | nil => exact ⟨w, rfl, by simp⟩
  | cons t ts ih =>
    obtain ⟨r1, e1, e2⟩ := C136_step hM hn h0 hm0 hw h.1
    obtain ⟨w', a1, a2⟩ := ih r1 h.2
    refine ⟨w', a1, ?_⟩
    rw [a2, List.length_cons, pow_succ, mul_assoc]
    congr 1
    rw [e2]
    have hz := along_cross M (apart ia ib (w.step M sc t))
    generalize along M (apart ia ib (w.step M sc t)) = n at hz
    generalize f ((apart ia ib (w.step M sc t)).mag M) * dt * m = F
    generalize hu : ((leaving ia ib w).add (n.scale F)).scale (M.pow sc.par.damping dt) = u
    generalize (1 - M.exp (-c * dt * m)) * u.dot n = G
    have e3 : (apart ia ib (w.step M sc t)).cross (u.sub (n.scale G)) = M.pow sc.par.damping dt * (apart ia ib (w.step M sc t)).cross (leaving ia ib w) := by
      rw [← hu]
      simp only [V2.cross, V2.sub, V2.add, V2.scale] at hz ⊢
      linear_combination (M.pow sc.par.damping dt * F - G) * hz
    rw [e3, e1]
    simp only [V2.cross, V2.add, V2.scale]
    ring

/-! ## Along a line -/

namespace Spec
/-- The second body is at the distance `d` from the first in the direction `e`, and moves away at the speed `s`. -/
def OnLine (ia ib : Nat) (e : V2 K) (d s : K) (w : World K) : Prop := apart ia ib w = e.scale d ∧ leaving ia ib w = e.scale s
end Spec

theorem along_line {M : Mth K} (hM : M.Lawful) {e : V2 K} (he : e.dot e = 1) {d : K} (hd : 0 < d) : along M (e.scale d) = e ∧ (e.scale d).mag M = d := by
  have h1 := mag_sq hM (e.scale d)
  have h2 := mag_nonneg hM (e.scale d)
  have h3 : (e.scale d).lengthSq = d * d := by
    have : (e.scale d).lengthSq = d * d * e.dot e := by simp only [V2.lengthSq, V2.scale, V2.dot]; ring
    rw [this, he, mul_one]
  have h4 : (e.scale d).mag M = d := by
    rw [h3] at h1
    exact (mul_self_inj h2 hd.le).1 h1
  refine ⟨?_, h4⟩
  unfold along
  rw [h4, if_neg hd.ne']
  refine V2.ext ?_ ?_ <;> simp only [V2.scale] <;> field_simp

/-- **C136.** Bodies that move along the line through them stay on it, as long as they do not meet. -/
theorem C136_line {M : Mth K} (hM : M.Lawful) {sc : Scene K} (hn : sc.par.iterations ≠ 0) {dt : K} (h0 : 0 < dt) {ia ib : Nat} {f : K → K} {c m : K} (hm0 : 0 < m) {w : World K} {t : Tick K} (hw : Coiled ia ib f c m w)
    (h : Draws sc dt ia ib w t (w.step M sc t)) {e : V2 K} (he : e.dot e = 1) {d s : K} (hl : OnLine ia ib e d s w) (hd : 0 < d + dt * s) :
    OnLine ia ib e (d + dt * s) (remains M sc.par c m dt * (s + f (d + dt * s) * dt * m)) (w.step M sc t) := by
  obtain ⟨-, e1, e2⟩ := C136_step hM hn h0 hm0 hw h
  have e3 : apart ia ib (w.step M sc t) = e.scale (d + dt * s) := by
    rw [e1, hl.1, hl.2]
    refine V2.ext ?_ ?_ <;> simp only [V2.add, V2.scale] <;> ring
  obtain ⟨a1, a2⟩ := along_line hM he hd
  refine ⟨e3, ?_⟩
  rw [e2, e3, a1, a2, hl.2]
  generalize f (d + dt * s) * dt * m = F
  have hu : ((e.scale s).add (e.scale F)).scale (M.pow sc.par.damping dt) = e.scale (M.pow sc.par.damping dt * (s + F)) := by
    refine V2.ext ?_ ?_ <;> simp only [V2.add, V2.scale] <;> ring
  rw [hu]
  have hd : (e.scale (M.pow sc.par.damping dt * (s + F))).dot e = M.pow sc.par.damping dt * (s + F) := by
    have : (e.scale (M.pow sc.par.damping dt * (s + F))).dot e = M.pow sc.par.damping dt * (s + F) * e.dot e := by simp only [V2.scale, V2.dot]; ring
    rw [this, he, mul_one]
  rw [hd]
  unfold remains
  refine V2.ext ?_ ?_ <;> simp only [V2.sub, V2.scale] <;> ring

theorem vigour_low_x {E a dt x v : K} (hE : 0 ≤ E) : (1 - E * a * dt ^ 2 / (2 * (1 + E))) * (2 * E / (1 + E) * a) * x ^ 2 ≤ vigour E a dt x v := by
  have e : vigour E a dt x v - (1 - E * a * dt ^ 2 / (2 * (1 + E))) * (2 * E / (1 + E) * a) * x ^ 2 = (v + E / (1 + E) * a * dt * x) ^ 2 := by
    unfold vigour
    have : (1 + E) ≠ 0 := by linarith
    field_simp
    ring
  have := sq_nonneg (v + E / (1 + E) * a * dt * x)
  linarith

theorem vigour_less {E a dt x v : K} (hE : 0 ≤ E) (hE1 : E ≤ 1) : vigour E a dt (x + dt * v) (E * (v - a * dt * (x + dt * v))) ≤ vigour E a dt x v := by
  rw [vigour_step hE]
  have h2 : 0 ≤ (1 - E) / (1 + E) := div_nonneg (by linarith) (by linarith)
  have h3 := mul_nonneg h2 (sq_nonneg (v + E * (v - a * dt * (x + dt * v))))
  linarith

theorem remains_le {M : Mth K} (hM : M.Lawful) {par : Params K} {c m dt : K} (h0 : 0 < dt) (hm : 0 < m) (hc : 0 ≤ c) (hd : 0 ≤ par.damping ∧ par.damping ≤ 1) : 0 ≤ remains M par c m dt ∧ remains M par c m dt ≤ 1 := by
  refine ⟨mul_nonneg (hM.exp_pos _).le (hM.pow_nonneg _ _ hd.1), ?_⟩
  have h1 : M.exp (-c * dt * m) ≤ 1 := hM.exp_le _ (by have := mul_nonneg (mul_nonneg hc h0.le) hm.le; linarith [show -c * dt * m = -(c * dt * m) by ring])
  have h2 : M.pow par.damping dt ≤ 1 := hM.pow_le _ _ hd.1 hd.2 h0.le
  have := mul_le_mul h1 h2 (hM.pow_nonneg _ _ hd.1) zero_le_one
  rw [one_mul] at this
  exact this

theorem not_met {E a dt x v rest : K} (hE : 0 ≤ E) (hr : 0 ≤ rest) (hs : 0 ≤ (1 - E * a * dt ^ 2 / (2 * (1 + E))) * (2 * E / (1 + E) * a))
    (hV : vigour E a dt x v < (1 - E * a * dt ^ 2 / (2 * (1 + E))) * (2 * E / (1 + E) * a) * rest ^ 2) : |x| < rest := by
  have h1 := (vigour_low_x (a := a) (dt := dt) (x := x) (v := v) hE).trans_lt hV
  have h2 : x ^ 2 < rest ^ 2 := lt_of_mul_lt_mul_left h1 hs
  exact abs_lt_of_sq_lt_sq h2 hr

/-- **C136.** Bodies on a default spring that move along its line, with too little energy to meet, never do, and swing about the rest length within fixed bounds, if the spring is not too stiff for the step. -/
theorem C136_bounded {M : Mth K} (hM : M.Lawful) {sc : Scene K} (hn : sc.par.iterations ≠ 0) {dt : K} (h0 : 0 < dt) {ia ib : Nat} {rest k c m : K} (hm0 : 0 < m) (hk : 0 ≤ k) (hc : 0 ≤ c) (hr : 0 ≤ rest)
    (hd : 0 ≤ sc.par.damping ∧ sc.par.damping ≤ 1) {w : World K} (hw : Coiled ia ib (fun x => (rest - x) * k) c m w) (ticks : List (Tick K)) (h : EveryStep M sc (Draws sc dt ia ib) w ticks)
    {e : V2 K} (he : e.dot e = 1) {d s : K} (hl : OnLine ia ib e d s w)
    (hs : remains M sc.par c m dt * (k * m) * dt ^ 2 ≤ 2 * (1 + remains M sc.par c m dt)) :
    let E := remains M sc.par c m dt
    let room := 1 - E * (k * m) * dt ^ 2 / (2 * (1 + E))
    let V := vigour E (k * m) dt (d - rest) s
    V < room * (2 * E / (1 + E) * (k * m)) * rest ^ 2 →
    ∃ w', w.run M sc (ticks.map .step) = some w' ∧ Coiled ia ib (fun x => (rest - x) * k) c m w' ∧ ∃ d' s', OnLine ia ib e d' s' w' ∧ 0 < d' ∧
      (d' - rest, d' - rest + dt * s') = (bounce (1 + E - E * (k * m) * dt ^ 2) E)^[ticks.length] (d - rest, d - rest + dt * s) ∧
      vigour E (k * m) dt (d' - rest) s' ≤ V ∧ room * s' ^ 2 ≤ V ∧ room * (2 * E / (1 + E) * (k * m)) * (d' - rest) ^ 2 ≤ V := by
  intro E room V hV
  obtain ⟨hE0, hE1⟩ := remains_le hM (par := sc.par) h0 hm0 hc hd
  change 0 ≤ E at hE0
  change E ≤ 1 at hE1
  have ha : 0 ≤ k * m := mul_nonneg hk hm0.le
  have hroom : 0 ≤ room := by
    show 0 ≤ 1 - _ / _
    rw [sub_nonneg, div_le_one (by linarith)]
    exact hs
  have hκ : 0 ≤ room * (2 * E / (1 + E) * (k * m)) := mul_nonneg hroom (mul_nonneg (div_nonneg (by linarith) (by linarith)) ha)
  suffices H : ∃ w', w.run M sc (ticks.map .step) = some w' ∧ Coiled ia ib (fun x => (rest - x) * k) c m w' ∧ ∃ d' s', OnLine ia ib e d' s' w' ∧ 0 < d' ∧
      (d' - rest, d' - rest + dt * s') = (bounce (1 + E - E * (k * m) * dt ^ 2) E)^[ticks.length] (d - rest, d - rest + dt * s) ∧ vigour E (k * m) dt (d' - rest) s' ≤ vigour E (k * m) dt (d - rest) s by
    obtain ⟨w', a1, a2, d', s', a3, a4, a5, a6⟩ := H
    exact ⟨w', a1, a2, d', s', a3, a4, a5, a6, ((vigour_low hE0 hs).resolve_right (not_lt.2 ha)).trans a6, (vigour_low_x hE0).trans a6⟩
  change vigour E (k * m) dt (d - rest) s < _ at hV
  clear V
  induction ticks generalizing w d s with
  | nil =>
    refine ⟨w, rfl, hw, d, s, hl, ?_, rfl, le_rfl⟩
    have := (abs_lt.1 (not_met hE0 hr hκ hV)).1
    linarith
  | cons t ts ih =>
    have hv := vigour_less (E := E) (a := k * m) (dt := dt) (x := d - rest) (v := s) hE0 hE1
    have e1 : d - rest + dt * s = (d + dt * s) - rest := by ring
    have e2 : E * (s - k * m * dt * (d - rest + dt * s)) = E * (s + (rest - (d + dt * s)) * k * dt * m) := by ring
    rw [e2, e1] at hv
    have hd' : 0 < d + dt * s := by
      have := (abs_lt.1 (not_met hE0 hr hκ (hv.trans_lt hV))).1
      linarith
    have l1 := C136_line hM hn h0 hm0 hw h.1 he hl hd'
    obtain ⟨r1, -, -⟩ := C136_step hM hn h0 hm0 hw h.1
    obtain ⟨w', a1, a2, d', s', a3, a4, a5, a6⟩ := ih r1 h.2 l1 (hv.trans_lt hV)
    refine ⟨w', a1, a2, d', s', a3, a4, ?_, a6.trans hv⟩
    rw [a5, List.length_cons, Function.iterate_succ_apply]
    congr 1
    unfold bounce
    refine Prod.ext e1.symm ?_
    show d + dt * s - rest + dt * (E * (s + (rest - (d + dt * s)) * k * dt * m)) = _
    ring

open Filter Topology in
/-- **C136.** With real numbers: if there is any damping, such bodies come to rest at the rest length. -/
theorem C136_rests {sc : Scene ℝ} (hn : sc.par.iterations ≠ 0) {dt : ℝ} (h0 : 0 < dt) {ia ib : Nat} {rest k c m : ℝ} (hm0 : 0 < m) (hk : 0 < k) (hc : 0 ≤ c) (hr : 0 ≤ rest) (hd : 0 < sc.par.damping ∧ sc.par.damping ≤ 1)
    (hl : 0 < c ∨ sc.par.damping < 1) {w : World ℝ} (hw : Coiled ia ib (fun x => (rest - x) * k) c m w) {e : V2 ℝ} (he : e.dot e = 1) {d s : ℝ} (hon : OnLine ia ib e d s w)
    (hs : let E := Real.exp (-c * dt * m) * sc.par.damping ^ dt; E * (k * m) * dt ^ 2 < 2 * (1 + E) ∧
      vigour E (k * m) dt (d - rest) s < (1 - E * (k * m) * dt ^ 2 / (2 * (1 + E))) * (2 * E / (1 + E) * (k * m)) * rest ^ 2) {ε : ℝ} (hε : 0 < ε) :
    ∃ N, ∀ ticks : List (Tick ℝ), EveryStep realMth sc (Draws sc dt ia ib) w ticks → N ≤ ticks.length →
      ∃ w', w.run realMth sc (ticks.map .step) = some w' ∧ ∃ d' s', OnLine ia ib e d' s' w' ∧ |d' - rest| < ε ∧ |dt * s'| < ε := by
  set E := Real.exp (-c * dt * m) * sc.par.damping ^ dt with hE
  obtain ⟨hs1, hs2⟩ := hs
  change E * (k * m) * dt ^ 2 < 2 * (1 + E) at hs1
  have hE0 : 0 < E := mul_pos (Real.exp_pos _) (Real.rpow_pos_of_pos hd.1 _)
  have hp1 : sc.par.damping ^ dt ≤ 1 := Real.rpow_le_one hd.1.le hd.2 h0.le
  have hx1 : Real.exp (-c * dt * m) ≤ 1 := Real.exp_le_one_iff.2 (by have := mul_nonneg (mul_nonneg hc h0.le) hm0.le; nlinarith)
  have hE1 : E < 1 := by
    rcases hl with hl | hl
    · have : Real.exp (-c * dt * m) < 1 := Real.exp_lt_one_iff.2 (by have := mul_pos (mul_pos hl h0) hm0; nlinarith)
      exact mul_lt_one_of_nonneg_of_lt_one_left (Real.exp_pos _).le this hp1
    · exact mul_lt_one_of_nonneg_of_lt_one_right hx1 (Real.rpow_nonneg hd.1.le _) (Real.rpow_lt_one hd.1.le hl h0)
  set T := 1 + E - E * (k * m) * dt ^ 2 with hT
  have hpos : 0 < E * (k * m) * dt ^ 2 := by positivity
  set p := (d - rest, d - rest + dt * s) with hp
  have hlim := dies_out (T := T) (E := E) hE0.le hE1 (abs_lt.2 ⟨by rw [hT]; linarith, by rw [hT]; linarith⟩) (a := fun n => ((bounce T E)^[n] p).1)
    (fun n => by rw [Function.iterate_succ_apply', Function.iterate_succ_apply']; rfl)
  obtain ⟨N, hN⟩ := (Metric.tendsto_atTop.1 hlim) (ε / 2) (by linarith)
  refine ⟨N, fun ticks h hl => ?_⟩
  obtain ⟨w', a1, -, d', s', a3, -, a2, -⟩ := C136_bounded realMth_lawful hn h0 hm0 hk.le hc hr ⟨hd.1.le, hd.2⟩ hw ticks h he hon hs1.le hs2
  have b1 := congrArg Prod.fst a2
  have b2 := congrArg Prod.snd a2
  have n1 := hN ticks.length hl
  have n2 := hN (ticks.length + 1) (by omega)
  rw [Function.iterate_succ_apply'] at n2
  rw [Real.dist_eq, sub_zero] at n1 n2
  change d' - rest = ((bounce T E)^[ticks.length] p).1 at b1
  change d' - rest + dt * s' = ((bounce T E)^[ticks.length] p).2 at b2
  rw [← b1] at n1
  change |((bounce T E)^[ticks.length] p).2| < _ at n2
  rw [← b2] at n2
  refine ⟨w', a1, d', s', a3, by linarith, ?_⟩
  have : dt * s' = (d' - rest + dt * s') - (d' - rest) := by ring
  rw [this]
  refine (abs_sub _ _).trans_lt ?_
  linarith

/-! ## Orbits -/

/-- **C136.** On a spring with the rest length zero and without damping of its own, the bodies circle each other, in any direction, within fixed bounds. -/
theorem C136_orbit {M : Mth K} (hM : M.Lawful) {sc : Scene K} (hn : sc.par.iterations ≠ 0) {dt : K} (h0 : 0 < dt) {ia ib : Nat} {k m : K} (hm0 : 0 < m) (hk : 0 ≤ k) (he : M.exp 0 = 1)
    (hd : 0 ≤ sc.par.damping ∧ sc.par.damping ≤ 1) {w : World K} (hw : Coiled ia ib (fun x => (0 - x) * k) 0 m w) (ticks : List (Tick K)) (h : EveryStep M sc (Draws sc dt ia ib) w ticks)
    (hs : M.pow sc.par.damping dt * (k * m) * dt ^ 2 ≤ 2 * (1 + M.pow sc.par.damping dt)) :
    let D := M.pow sc.par.damping dt
    let room := 1 - D * (k * m) * dt ^ 2 / (2 * (1 + D))
    let V := vigour D (k * m) dt (apart ia ib w).x (leaving ia ib w).x + vigour D (k * m) dt (apart ia ib w).y (leaving ia ib w).y
    ∃ w', w.run M sc (ticks.map .step) = some w' ∧ 0 ≤ room ∧ room * (leaving ia ib w').lengthSq ≤ V ∧ room * (2 * D / (1 + D) * (k * m)) * (apart ia ib w').lengthSq ≤ V := by
  intro D room V
  have hE0 : 0 ≤ D := hM.pow_nonneg _ _ hd.1
  have hE1 : D ≤ 1 := hM.pow_le _ _ hd.1 hd.2 h0.le
  have ha : 0 ≤ k * m := mul_nonneg hk hm0.le
  have hroom : 0 ≤ room := by
    show 0 ≤ 1 - _ / _
    rw [sub_nonneg, div_le_one (by linarith)]
    exact hs
  suffices H : ∃ w', w.run M sc (ticks.map .step) = some w' ∧ vigour D (k * m) dt (apart ia ib w').x (leaving ia ib w').x + vigour D (k * m) dt (apart ia ib w').y (leaving ia ib w').y ≤
      vigour D (k * m) dt (apart ia ib w).x (leaving ia ib w).x + vigour D (k * m) dt (apart ia ib w).y (leaving ia ib w).y by
    obtain ⟨w', a1, a2⟩ := H
    refine ⟨w', a1, hroom, le_trans ?_ a2, le_trans ?_ a2⟩
    · have h1 := (vigour_low (x := (apart ia ib w').x) (v := (leaving ia ib w').x) hE0 hs).resolve_right (not_lt.2 ha)
      have h2 := (vigour_low (x := (apart ia ib w').y) (v := (leaving ia ib w').y) hE0 hs).resolve_right (not_lt.2 ha)
      refine le_trans (le_of_eq ?_) (add_le_add h1 h2)
      show (1 - D * (k * m) * dt ^ 2 / (2 * (1 + D))) * _ = _
      simp only [V2.lengthSq, V2.dot]
      ring
    · have h1 := vigour_low_x (a := k * m) (dt := dt) (x := (apart ia ib w').x) (v := (leaving ia ib w').x) hE0
      have h2 := vigour_low_x (a := k * m) (dt := dt) (x := (apart ia ib w').y) (v := (leaving ia ib w').y) hE0
      refine le_trans (le_of_eq ?_) (add_le_add h1 h2)
      show (1 - D * (k * m) * dt ^ 2 / (2 * (1 + D))) * (2 * D / (1 + D) * (k * m)) * _ = _
      simp only [V2.lengthSq, V2.dot]
      ring
  clear V
  induction ticks generalizing w with
  | nil => exact ⟨w, rfl, le_rfl⟩
  | cons t ts ih =>
    obtain ⟨r1, e1, e2⟩ := C136_step hM hn h0 hm0 hw h.1
    obtain ⟨w', a1, a2⟩ := ih r1 h.2
    refine ⟨w', a1, a2.trans ?_⟩
    have e3 : (along M (apart ia ib (w.step M sc t))).scale ((0 - (apart ia ib (w.step M sc t)).mag M) * k * dt * m) = (apart ia ib (w.step M sc t)).scale (-(k * m * dt)) := by
      generalize apart ia ib (w.step M sc t) = q
      unfold along
      split
      · rename_i hz
        have h1 := mag_sq hM q
        rw [hz, mul_zero] at h1
        have h2 : q.x * q.x + q.y * q.y = 0 := h1.symm
        have hx : q.x = 0 := by nlinarith [mul_self_nonneg q.x, mul_self_nonneg q.y]
        have hy : q.y = 0 := by nlinarith [mul_self_nonneg q.x, mul_self_nonneg q.y]
        refine V2.ext ?_ ?_ <;> simp [V2.scale, V2.zero, hx, hy]
      · rename_i hz
        refine V2.ext ?_ ?_ <;> simp only [V2.scale] <;> field_simp <;> ring
    have e4 : leaving ia ib (w.step M sc t) = ((leaving ia ib w).add ((apart ia ib (w.step M sc t)).scale (-(k * m * dt)))).scale D := by
      rw [e2, e3, neg_zero, zero_mul, zero_mul, he, sub_self, zero_mul]
      refine V2.ext ?_ ?_ <;> simp only [V2.sub, V2.scale, mul_zero, sub_zero] <;> rfl
    refine add_le_add ?_ ?_
    · have := vigour_less (E := D) (a := k * m) (dt := dt) (x := (apart ia ib w).x) (v := (leaving ia ib w).x) hE0 hE1
      refine le_trans (le_of_eq ?_) this
      rw [e4, e1]
      congr 1 <;> simp only [V2.add, V2.scale] <;> ring
    · have := vigour_less (E := D) (a := k * m) (dt := dt) (x := (apart ia ib w).y) (v := (leaving ia ib w).y) hE0 hE1
      refine le_trans (le_of_eq ?_) this
      rw [e4, e1]
      congr 1 <;> simp only [V2.add, V2.scale] <;> ring

/-! ## Examples -/

/-- Two equal bodies at the distance 3. -/
def exTwins (v : V2 ℚ) (k : Nat) : Body ℚ :=
  if k = 0 then { Body.blank with m := 2, mInv := 1/2, i := 1, iInv := 1 } else { Body.blank with m := 2, mInv := 1/2, i := 1, iInv := 1, p := ⟨3, 0⟩, v := v }
def exCoil (rest k c : ℚ) : DampedSpring ℚ :=
  { anchorA := ⟨0, 0⟩, anchorB := ⟨0, 0⟩, damping := c, forceFn := fun x => (rest - x) * k, targetVrn := 0, vCoef := 0, r1 := ⟨0, 0⟩, r2 := ⟨0, 0⟩, nMass := 0, n := ⟨0, 0⟩, jAcc := 0 }
def exCoils (rest k c : ℚ) (v : V2 ℚ) : World ℚ := { World.init (exTwins v) (fun _ => ⟨.circle ⟨⟨0, 0⟩, ⟨0, 0⟩, 1⟩, ⟨0, 0, 0, 0⟩, 0, ⟨1, 0⟩⟩) with joints := [⟨0, 1, .spring (exCoil rest k c)⟩] }

theorem exDraws {w w' : World ℚ} (h1 : (w.joints.all fun l => (l.ia == 0 || l.ia == 1) && (l.ib == 0 || l.ib == 1)) = true) (h2 : w'.active = [])
    (h3 : ((w.bodies 0).type exBalls3.par.inf ≠ .kinematic ∧ (w.bodies 0).force = V2.zero) ∧ (w.bodies 1).type exBalls3.par.inf ≠ .kinematic ∧ (w.bodies 1).force = V2.zero) : Draws exBalls3 (1/4) 0 1 w exSpinTick w' :=
  ⟨rfl, ⟨exBalls3.par.gravity, .inl ⟨by decide, h3.1.1, h3.1.2, rfl⟩, .inl ⟨by decide, h3.2.1, h3.2.2, rfl⟩⟩, (exSwings (sc := exBalls3) h1 h2).free⟩

/-- The spring pulls the bodies together along their line, to its rest length. -/
example : exBalls3.par.iterations ≠ 0 ∧ Coiled 0 1 (fun x => (2 - x) * 64) 1 1 (exCoils 2 64 1 ⟨0, 0⟩) ∧ EveryStep toyMth exBalls3 (Draws exBalls3 (1/4) 0 1) (exCoils 2 64 1 ⟨0, 0⟩) [exSpinTick, exSpinTick] ∧
    OnLine 0 1 (⟨1, 0⟩ : V2 ℚ) 3 0 (exCoils 2 64 1 ⟨0, 0⟩) ∧
    (let E := remains toyMth exBalls3.par 1 1 (1/4)
     E * (64 * 1) * (1/4) ^ 2 < 2 * (1 + E) ∧ vigour E (64 * 1) (1/4) (3 - 2) 0 < (1 - E * (64 * 1) * (1/4) ^ 2 / (2 * (1 + E))) * (2 * E / (1 + E) * (64 * 1)) * 2 ^ 2) ∧
    (let w1 := (exCoils 2 64 1 ⟨0, 0⟩).step toyMth exBalls3 exSpinTick
     let w2 := w1.step toyMth exBalls3 exSpinTick
     leaving 0 1 w1 = ⟨-4, 0⟩ ∧ apart 0 1 w2 = ⟨2, 0⟩ ∧ leaving 0 1 w2 = ⟨-1, 0⟩) := by
  refine ⟨by decide +kernel, ⟨⟨exCoil 2 64 1, ⟨by decide, rfl⟩, rfl, rfl, rfl, rfl⟩, by decide +kernel, by decide +kernel⟩,
    ⟨exDraws (by decide +kernel) (by decide +kernel) (by decide +kernel), exDraws (by decide +kernel) (by decide +kernel) (by decide +kernel), trivial⟩, by unfold OnLine; decide +kernel, by decide +kernel, by decide +kernel⟩

/-- Bodies that pass each other sweep equal areas, but for the damping. -/
example : Coiled 0 1 (fun x => (0 - x) * 16) 0 1 (exCoils 0 16 0 ⟨0, 16⟩) ∧ EveryStep toyMth exBalls3 (Draws exBalls3 (1/4) 0 1) (exCoils 0 16 0 ⟨0, 16⟩) [exSpinTick] ∧ toyMth.exp 0 = 1 ∧
    toyMth.pow exBalls3.par.damping (1/4) * (16 * 1) * (1/4) ^ 2 ≤ 2 * (1 + toyMth.pow exBalls3.par.damping (1/4)) ∧
    (let w := exCoils 0 16 0 ⟨0, 16⟩
     let w1 := w.step toyMth exBalls3 exSpinTick
     apart 0 1 w1 = ⟨3, 4⟩ ∧ (apart 0 1 w).cross (leaving 0 1 w) = 48 ∧ (apart 0 1 w1).cross (leaving 0 1 w1) = 24 ∧ leaving 0 1 w1 = ⟨-6, 0⟩) := by
  refine ⟨⟨⟨exCoil 0 16 0, ⟨by decide, rfl⟩, rfl, rfl, rfl, rfl⟩, by decide +kernel, by decide +kernel⟩, ⟨exDraws (by decide +kernel) (by decide +kernel) (by decide +kernel), trivial⟩, by decide +kernel, by decide +kernel, by decide +kernel⟩

end Cm
