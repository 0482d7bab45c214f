import Verif.Props.Rod
/-! # C138: a slide joint leaves the bodies alone inside its range and props them apart below it

Above its range it is the rope of C134. -/
set_option linter.unusedSectionVars false
set_option linter.unusedSimpArgs false
set_option linter.unusedVariables false

namespace Cm
open Spec
variable {K : Type} [Field K] [LinearOrder K] [IsStrictOrderedRing K]

/-! ## The solver -/

/-- What the solver makes of a strut. -/
theorem strut_solve {M : Mth K} (hM : M.Lawful) {par : Params K} (hn : par.iterations ≠ 0) (prevDT dt : K) (dyn : List Nat) (ia ib : Nat) (a b : Body K) (g : SlideJoint K) (hm : Movable a b) (hf : 0 ≤ g.maxForce * dt) (hmm : g.min ≤ g.max) :
    let A := placed M dt dyn ia a
    let B := placed M dt dyn ib b
    let r := jointSolve M par prevDT dt dyn ia ib a b (.slide g)
    let d := Spec.gap A B g.anchorA g.anchorB
    Kin A r.1 ∧ Kin B r.2.1 ∧ ∃ j, r.2.2 = .slide { g.preStep M A B dt with jnAcc := j } ∧
      (d ≠ V2.zero → d.mag M < g.min → -(g.maxForce * dt) < j →
        approach r.1 r.2.1 (anchorOffset A g.anchorA) (anchorOffset B g.anchorB) (d.scale (1 / d.mag M)).neg ≤ correction M g.toJointCfg dt (d.mag M - g.min)) := by
  intro A B r d
  have hmAB : Movable A B := placed_movable M dt dyn ia ib hm
  generalize hco : (if prevDT ≠ 0 then dt / prevDT else 0) = co
  generalize hG : g.preStep M A B dt = G
  have hr : r = (fun x : Body K × Body K × Joint K => x.2.2.applyImpulse M x.1 x.2.1 dt)^[par.iterations]
      ((applyImpulses (readied M par dt dyn ia a) (readied M par dt dyn ib b) G.r1 G.r2 (G.n.scale (G.jnAcc * co))).1,
        (applyImpulses (readied M par dt dyn ia a) (readied M par dt dyn ib b) G.r1 G.r2 (G.n.scale (G.jnAcc * co))).2, .slide G) := by
    rw [← hG, ← hco]; rfl
  have k0 := kin_push (readied M par dt dyn ia a) (readied M par dt dyn ib b) G.r1 G.r2 (G.n.scale (G.jnAcc * co))
  have ka := kin_trans (kin_readied M par dt dyn ia a) k0.1
  have kb := kin_trans (kin_readied M par dt dyn ib b) k0.2
  generalize applyImpulses (readied M par dt dyn ia a) (readied M par dt dyn ib b) G.r1 G.r2 (G.n.scale (G.jnAcc * co)) = ab at hr ka kb
  obtain ⟨z1, z2, j2, z3⟩ := slide_iter M dt A B G par.iterations (ab.1, ab.2, .slide G) ka kb ⟨G.jnAcc, rfl⟩
  rw [← hr] at z1 z2 z3
  refine ⟨z1, z2, j2, z3, fun hd hshort hlim => ?_⟩
  obtain ⟨n, hn'⟩ := Nat.exists_eq_succ_of_ne_zero hn
  rw [hn', Function.iterate_succ_apply'] at hr
  obtain ⟨i1, i2, j, i3⟩ := slide_iter M dt A B G n (ab.1, ab.2, .slide G) ka kb ⟨G.jnAcc, rfl⟩
  generalize (fun x : Body K × Body K × Joint K => x.2.2.applyImpulse M x.1 x.2.1 dt)^[n] (ab.1, ab.2, .slide G) = y at hr i1 i2 i3
  obtain ⟨a', b', jt⟩ := y
  dsimp only at hr i1 i2 i3
  subst i3
  have hs1 : ¬ ((B.p.add (anchorOffset B g.anchorB)).sub (A.p.add (anchorOffset A g.anchorA))).mag M > g.max := not_lt.2 (le_of_lt (lt_of_lt_of_le hshort hmm))
  have hs2 : ((B.p.add (anchorOffset B g.anchorB)).sub (A.p.add (anchorOffset A g.anchorA))).mag M < g.min := hshort
  have hc := C39_slide_short hM dt { g with jnAcc := j } a' b' a' b' rfl rfl (kin_movable hmAB i1 i2) hf (by rw [kin_gap i1 i2]; exact hd) hmm (by rw [kin_gap i1 i2]; exact hshort)
  have hg : ({ g with jnAcc := j } : SlideJoint K).preStep M a' b' dt = { G with jnAcc := j } := by
    rw [kin_slide M i1 i2, ← hG]
    unfold SlideJoint.preStep
    dsimp only
    simp only [if_neg hs1, if_pos hs2]
  have hr' : r = (((SlideJoint.applyImpulse { G with jnAcc := j } a' b' dt).1, (SlideJoint.applyImpulse { G with jnAcc := j } a' b' dt).2.1, Joint.slide (SlideJoint.applyImpulse { G with jnAcc := j } a' b' dt).2.2) : Body K × Body K × Joint K) := hr
  have hj2 : (SlideJoint.applyImpulse { G with jnAcc := j } a' b' dt).2.2.jnAcc = j2 := by
    rw [hr'] at z3
    have := Joint.slide.inj z3
    rw [this]
  dsimp only at hc
  rw [hg, kin_gap i1 i2, kin_offset i1, kin_offset i2, hj2] at hc
  have hneg : j2 ≤ 0 := by
    by_contra hcon
    have hnz : G.n ≠ V2.zero := by
      intro e
      have e1 : G.n = (d.scale (1 / d.mag M)).neg := by
        rw [← hG]
        unfold SlideJoint.preStep
        dsimp only
        rw [if_neg hs1, if_pos hs2]
        rfl
      have := mag_scale_inv hM d hd
      rw [e] at e1
      have ex := congrArg V2.x e1
      have ey := congrArg V2.y e1
      simp only [V2.zero, V2.neg] at ex ey
      rw [show (d.scale (1 / d.mag M)).x = 0 by linarith, show (d.scale (1 / d.mag M)).y = 0 by linarith] at this
      simp at this
    rw [← hj2] at hcon
    unfold SlideJoint.applyImpulse at hcon
    rw [if_neg hnz] at hcon
    dsimp only at hcon
    have hGf : G.maxForce = g.maxForce := by rw [← hG]; rfl
    rw [clamp_eq _ _ _ (by rw [hGf]; linarith [neg_mul g.maxForce dt])] at hcon
    refine hcon (max_le (by rw [hGf]; linarith [neg_mul g.maxForce dt]) (min_le_right _ _))
  rw [hr']
  rcases lt_or_eq_of_le hneg with h | h
  · exact le_of_eq (hc.1 hlim h)
  · exact hc.2 hlim h

theorem push_nothing (a b : Body K) (r1 r2 : V2 K) (s : K) : applyImpulses a b r1 r2 (V2.zero.scale s) = (a, b) := by
  unfold applyImpulses V2.zero V2.scale
  simp

/-- What the solver makes of a slide joint inside its range: nothing. -/
theorem slack_solve (M : Mth K) {par : Params K} (prevDT dt : K) (dyn : List Nat) (ia ib : Nat) (a b : Body K) (g : SlideJoint K)
    (h1 : g.min ≤ (Spec.gap (placed M dt dyn ia a) (placed M dt dyn ib b) g.anchorA g.anchorB).mag M) (h2 : (Spec.gap (placed M dt dyn ia a) (placed M dt dyn ib b) g.anchorA g.anchorB).mag M ≤ g.max) :
    jointSolve M par prevDT dt dyn ia ib a b (.slide g) =
      (readied M par dt dyn ia a, readied M par dt dyn ib b, .slide { g.preStep M (placed M dt dyn ia a) (placed M dt dyn ib b) dt with jnAcc := 0 }) := by
  generalize hA : placed M dt dyn ia a = A at h1 h2
  generalize hB : placed M dt dyn ib b = B at h1 h2
  have hs1 : ¬ ((B.p.add (anchorOffset B g.anchorB)).sub (A.p.add (anchorOffset A g.anchorA))).mag M > g.max := not_lt.2 h2
  have hs2 : ¬ ((B.p.add (anchorOffset B g.anchorB)).sub (A.p.add (anchorOffset A g.anchorA))).mag M < g.min := not_lt.2 h1
  have hn : (g.preStep M A B dt).n = V2.zero := by
    unfold SlideJoint.preStep; dsimp only; rw [if_neg hs1, if_neg hs2]
  have hj : (g.preStep M A B dt).jnAcc = 0 := by
    unfold SlideJoint.preStep; dsimp only; rw [if_neg hs1, if_neg hs2]
  have hr : jointSolve M par prevDT dt dyn ia ib a b (.slide g) = (fun x : Body K × Body K × Joint K => x.2.2.applyImpulse M x.1 x.2.1 dt)^[par.iterations]
      ((applyImpulses (readied M par dt dyn ia a) (readied M par dt dyn ib b) (g.preStep M A B dt).r1 (g.preStep M A B dt).r2 ((g.preStep M A B dt).n.scale ((g.preStep M A B dt).jnAcc * (if prevDT ≠ 0 then dt / prevDT else 0)))).1,
        (applyImpulses (readied M par dt dyn ia a) (readied M par dt dyn ib b) (g.preStep M A B dt).r1 (g.preStep M A B dt).r2 ((g.preStep M A B dt).n.scale ((g.preStep M A B dt).jnAcc * (if prevDT ≠ 0 then dt / prevDT else 0)))).2,
        .slide (g.preStep M A B dt)) := by
    rw [← hA, ← hB]; rfl
  rw [hr, hn, push_nothing]
  refine Eq.trans (Function.iterate_fixed ?_ _) ?_
  · show (Joint.slide (g.preStep M A B dt)).applyImpulse M _ _ dt = _
    unfold Joint.applyImpulse SlideJoint.applyImpulse
    dsimp only
    rw [if_pos hn]
  · rw [← hj]

theorem readied_coast_v (M : Mth K) (par : Params K) (dt : K) (dyn : List Nat) (k : Nat) (b : Body K) : (readied M par dt dyn k b).v = (coast M par dyn dt k b).v := by
  unfold readied placed coast
  by_cases h : k ∈ dyn
  · rw [if_pos h, if_pos h]
    unfold Body.updateVelocity
    have ht : (b.updatePosition M dt).type par.inf = b.type par.inf := rfl
    rw [ht]
    by_cases hk : b.type par.inf = .kinematic
    · rw [if_pos hk, if_neg (by simp [hk])]; rfl
    · rw [if_neg hk, if_pos ⟨h, hk⟩]; rfl
  · rw [if_neg h, if_neg h, if_neg (by simp [h])]

/-! ## One step -/

/-- **C138.** One step with a slide joint: inside its range the bodies move as if there were no joint; below it, unless the joint needs its greatest force, the tied points part at least as
fast as the joint wants to make up for what is missing. -/
theorem C138_step {M : Mth K} (hM : M.Lawful) {sc : Scene K} (hn : sc.par.iterations ≠ 0) {dt : K} (h0 : 0 < dt) {ia ib : Nat} {g : SlideJoint K} (hF : 0 ≤ g.maxForce) (hmm : g.min ≤ g.max)
    {w : World K} {t : Tick K} (hw : Roped M ia ib g w) (h : Swings sc dt ia ib w t (w.step M sc t)) :
    let w' := w.step M sc t
    let ca := g.anchorA
    let cb := g.anchorB
    Roped M ia ib g w' ∧
    openness M ia ib ca cb w' = ((openness M ia ib ca cb w).add ((opening M ia ib ca cb w).scale dt)).add (swerving M dt ia ib ca cb w) ∧
    (g.min ≤ reach M ia ib ca cb w' → reach M ia ib ca cb w' ≤ g.max →
      ((w'.bodies ia).v = (coast M sc.par t.dyn t.dt ia (w.bodies ia)).v ∧ (w'.bodies ia).w = (coast M sc.par t.dyn t.dt ia (w.bodies ia)).w) ∧
      ((w'.bodies ib).v = (coast M sc.par t.dyn t.dt ib (w.bodies ib)).v ∧ (w'.bodies ib).w = (coast M sc.par t.dyn t.dt ib (w.bodies ib)).w)) ∧
    (0 < reach M ia ib ca cb w' → reach M ia ib ca cb w' < g.min → RopeHolds dt ia ib w' → -spreading M ia ib ca cb w' ≤ correction M g.toJointCfg dt (reach M ia ib ca cb w' - g.min)) := by
  intro w' ca cb
  obtain rfl := h.length
  obtain ⟨hf, ⟨g1, j1, c1, c2, c3, c4, c5⟩⟩ := hw
  have f1 : g1.maxForce = g.maxForce := congrArg JointCfg.maxForce c1
  obtain ⟨ka, kb, j, r1, r2⟩ := strut_solve hM hn w.prevDT t.dt t.dyn ia ib (w.bodies ia) (w.bodies ib) g1 hf.movable (by rw [f1]; exact mul_nonneg hF h0.le) (by rw [c4, c5]; exact hmm)
  obtain ⟨q1, q2, q3⟩ := tied_step h0 j1 hf h ⟨ka, kb⟩
  rw [r1] at q1
  obtain ⟨o1, o2, o3⟩ := q3 ca cb
  refine ⟨⟨q2, ⟨_, q1, c1, c2, c3, c4, c5⟩⟩, o1, fun h1 h2 => ?_, fun hp hs hh => ?_⟩
  · have hmov : ¬ (Immovable (w.bodies ia) ∧ Immovable (w.bodies ib)) := by
      rintro ⟨i1, i2⟩
      have := hf.movable.2.2.2.2
      rw [i1.1, i2.1] at this
      simp at this
    obtain ⟨ea, eb, -⟩ := only_joint h0.ne' j1 h.free hmov
    have hsl := slack_solve M (par := sc.par) w.prevDT t.dt t.dyn ia ib (w.bodies ia) (w.bodies ib) g1 (by rw [c2, c3, o2, c4]; exact h1) (by rw [c2, c3, o2, c5]; exact h2)
    rw [hsl] at ea eb
    show (((w.step M sc t).bodies ia).v = _ ∧ ((w.step M sc t).bodies ia).w = _) ∧ (((w.step M sc t).bodies ib).v = _ ∧ ((w.step M sc t).bodies ib).w = _)
    rw [ea, eb]
    exact ⟨⟨readied_coast_v .., readied_coast ..⟩, ⟨readied_coast_v .., readied_coast ..⟩⟩
  · rw [c2, c3] at r2
    rw [o2, approach_relVel, o3, c1, c4] at r2
    have hne : openness M ia ib ca cb w' ≠ V2.zero := by
      intro e
      unfold reach at hp
      rw [e, mag_zero hM] at hp
      exact lt_irrefl _ hp
    have hl := hh _ q1
    have := r2 hne hs (by rw [← f1]; exact hl)
    refine le_trans (le_of_eq ?_) this
    show -(opening M ia ib ca cb w').dot (bearing M ia ib ca cb w') = _
    unfold bearing reach V2.dot V2.neg V2.scale
    ring

/-! ## Many steps -/

/-- **C138.** A strut that is strong enough: what is missing to the least distance shrinks in each step to the part `errorBias ^ dt` of itself, but for what the step takes away from the
distance beside the speed. -/
theorem C138_strut {M : Mth K} (hM : M.Lawful) {sc : Scene K} (hn : sc.par.iterations ≠ 0) {dt : K} (h0 : 0 < dt) {ia ib : Nat} {g : SlideJoint K} (he : 0 ≤ g.errorBias ∧ g.errorBias ≤ 1) (hF : 0 ≤ g.maxForce) (hmm : g.min ≤ g.max)
    {w : World K} (hw : Roped M ia ib g w) (S : K) (hS : 0 ≤ S) (t₀ : Tick K) (ticks : List (Tick K))
    (h : EveryStep M sc (fun w t w' => Swings sc dt ia ib w t w' ∧ RopeHolds dt ia ib w' ∧ 0 < reach M ia ib g.anchorA g.anchorB w' ∧ reach M ia ib g.anchorA g.anchorB w' < g.min) w (t₀ :: ticks))
    (hs : EveryStep M sc (fun w t w' => -S ≤ surplus M dt ia ib g.anchorA g.anchorB w w') (w.step M sc t₀) ticks)
    (hB : (1 - M.pow g.errorBias dt) * (g.min - reach M ia ib g.anchorA g.anchorB (w.step M sc t₀)) ≤ g.maxBias * dt) (hSB : S ≤ g.maxBias * dt) :
    ∃ w', w.run M sc ((t₀ :: ticks).map .step) = some w' ∧ Roped M ia ib g w' ∧
      g.min - reach M ia ib g.anchorA g.anchorB w' ≤
        M.pow g.errorBias dt ^ ticks.length * (g.min - reach M ia ib g.anchorA g.anchorB (w.step M sc t₀)) + S * powers (M.pow g.errorBias dt) ticks.length := by
  have hc0 : 0 ≤ M.pow g.errorBias dt := hM.pow_nonneg _ _ he.1
  have hc1 : M.pow g.errorBias dt ≤ 1 := hM.pow_le _ _ he.1 he.2 h0.le
  obtain ⟨⟨p0, q0, y0, z0⟩, hrest⟩ := h
  obtain ⟨r0, -, -, s0⟩ := C138_step hM hn h0 hF hmm hw p0
  replace s0 := s0 y0 z0 q0
  rw [List.map_cons]
  show ∃ w', (w.step M sc t₀).run M sc (ticks.map .step) = some w' ∧ _
  generalize w.step M sc t₀ = w1 at *
  clear p0 q0 hw w
  generalize hc : M.pow g.errorBias dt = c at *
  have free : ∀ x : K, x < g.min → (1 - c) * (g.min - x) ≤ g.maxBias * dt → correction M g.toJointCfg dt (x - g.min) = (1 - c) * (x - g.min) / dt := by
    intro x hx hb
    refine correction_free h0 hc hc1 ?_
    rw [abs_sub_comm, abs_of_pos (by linarith)]
    exact hb
  rw [free _ z0 hB] at s0
  induction ticks generalizing w1 with
  | nil =>
    refine ⟨w1, rfl, r0, ?_⟩
    simp [powers]
  | cons t ts ih =>
    obtain ⟨⟨p1, q1, y1, z1⟩, hr⟩ := hrest
    obtain ⟨v1, hs'⟩ := hs
    obtain ⟨r1, -, -, s1⟩ := C138_step hM hn h0 hF hmm r0 p1
    replace s1 := s1 y1 z1 q1
    have hle : g.min - reach M ia ib g.anchorA g.anchorB (w1.step M sc t) ≤ c * (g.min - reach M ia ib g.anchorA g.anchorB w1) + S := by
      have e : -(dt * spreading M ia ib g.anchorA g.anchorB w1) ≤ (1 - c) * (reach M ia ib g.anchorA g.anchorB w1 - g.min) := by
        rw [le_div_iff₀ h0] at s0
        linarith
      unfold surplus at v1
      linarith
    have hB' : (1 - c) * (g.min - reach M ia ib g.anchorA g.anchorB (w1.step M sc t)) ≤ g.maxBias * dt := by
      have h1 := mul_le_mul_of_nonneg_left hle (by linarith : (0 : K) ≤ 1 - c)
      have h2 := mul_le_mul_of_nonneg_left hB hc0
      have h3 := mul_le_mul_of_nonneg_left hSB (by linarith : (0 : K) ≤ 1 - c)
      nlinarith
    rw [free _ z1 hB'] at s1
    obtain ⟨w', a1, a2, a3⟩ := ih (w1.step M sc t) (by assumption) (by assumption) (by assumption) (by assumption) (by assumption) (by assumption) (by assumption)
    refine ⟨w', a1, a2, a3.trans ?_⟩
    have h1 := mul_le_mul_of_nonneg_left hle (pow_nonneg hc0 ts.length)
    have h2 : c ^ ts.length + powers c ts.length = powers c (ts.length + 1) := by
      have : ∀ n, c ^ n + powers c n = powers c (n + 1) := by
        intro n
        induction n with
        | zero => simp [powers]
        | succ n ih => rw [powers, powers, ← ih, pow_succ]; ring
      exact this _
    rw [List.length_cons, ← h2, pow_succ]
    nlinarith

/-- **C138.** With real numbers, what a step takes away is at most what the arcs do: half the squares of the angles turned times the arms. In particular points tied at the centres of
gravity lose nothing, and what is missing shrinks geometrically. -/
theorem C138_real {sc : Scene ℝ} (hn : sc.par.iterations ≠ 0) {dt : ℝ} (h0 : 0 < dt) {ia ib : Nat} {g : SlideJoint ℝ} (he : 0 ≤ g.errorBias ∧ g.errorBias < 1) (hF : 0 ≤ g.maxForce) (hmm : g.min ≤ g.max)
    {w : World ℝ} (hw : Roped realMth ia ib g w) (S : ℝ) (hS : 0 ≤ S) (t₀ : Tick ℝ) (ticks : List (Tick ℝ))
    (h : EveryStep realMth sc (fun w t w' => Swings sc dt ia ib w t w' ∧ RopeHolds dt ia ib w' ∧ 0 < reach realMth ia ib g.anchorA g.anchorB w' ∧ reach realMth ia ib g.anchorA g.anchorB w' < g.min) w (t₀ :: ticks))
    (hs : EveryStep realMth sc (fun w _ _ => arcs dt ia ib g.anchorA g.anchorB w ≤ S) (w.step realMth sc t₀) ticks)
    (hB : (1 - g.errorBias ^ dt) * (g.min - reach realMth ia ib g.anchorA g.anchorB (w.step realMth sc t₀)) ≤ g.maxBias * dt) (hSB : S ≤ g.maxBias * dt) :
    ∃ w', w.run realMth sc ((t₀ :: ticks).map .step) = some w' ∧
      g.min - reach realMth ia ib g.anchorA g.anchorB w' ≤
        (g.errorBias ^ dt) ^ ticks.length * (g.min - reach realMth ia ib g.anchorA g.anchorB (w.step realMth sc t₀)) + S / (1 - g.errorBias ^ dt) := by
  have hc1 : g.errorBias ^ dt < 1 := Real.rpow_lt_one he.1 he.2 h0
  have hc0 : 0 ≤ g.errorBias ^ dt := Real.rpow_nonneg he.1 dt
  have key : ∀ (ticks : List (Tick ℝ)) (w : World ℝ), Roped realMth ia ib g w → 0 < reach realMth ia ib g.anchorA g.anchorB w →
      EveryStep realMth sc (fun w t w' => Swings sc dt ia ib w t w' ∧ RopeHolds dt ia ib w' ∧ 0 < reach realMth ia ib g.anchorA g.anchorB w' ∧ reach realMth ia ib g.anchorA g.anchorB w' < g.min) w ticks →
      EveryStep realMth sc (fun w _ _ => arcs dt ia ib g.anchorA g.anchorB w ≤ S) w ticks →
      EveryStep realMth sc (fun w t w' => -S ≤ surplus realMth dt ia ib g.anchorA g.anchorB w w') w ticks := by
    intro ticks
    induction ticks with
    | nil => intro _ _ _ _ _; trivial
    | cons t ts ih =>
      intro w hw hp h hs
      obtain ⟨r1, o1, -⟩ := C138_step realMth_lawful hn h0 hF hmm hw h.1.1
      refine ⟨?_, ih _ r1 h.1.2.2.1 h.2 hs.2⟩
      have h1 := (C134_surplus realMth_lawful o1 hp).1
      have h2 := swerving_real dt ia ib g.anchorA g.anchorB w
      have h3 := hs.1
      linarith
  obtain ⟨r0, -⟩ := C138_step realMth_lawful hn h0 hF hmm hw h.1.1
  obtain ⟨w', a1, -, a3⟩ := C138_strut realMth_lawful hn h0 ⟨he.1, he.2.le⟩ hF hmm hw S hS t₀ ticks h (key ticks _ r0 h.1.2.2.1 h.2 hs) hB hSB
  exact ⟨w', a1, a3.trans (add_le_add le_rfl (powers_real hc0 hc1 hS _))⟩

/-! ## Examples: two bodies one length apart that are to be five apart, and two that are five apart and may be anything between three and nine -/

def exClose (k : Nat) : Body ℚ := if k = 0 then exTied 0 else { exTied 1 with p := ⟨1, 0⟩, tr := ⟨1, 0, 0, 1, 1, 0⟩ }
def exProp (jt : Joint ℚ) : World ℚ := { World.init exClose (fun _ => ⟨.circle ⟨⟨0, 0⟩, ⟨0, 0⟩, 1⟩, ⟨0, 0, 0, 0⟩, 0, ⟨1, 0⟩⟩) with joints := [⟨0, 1, jt⟩] }
def exStrut : SlideJoint ℚ := ⟨⟨1000, 1/2, 100⟩, ⟨0, 0⟩, ⟨0, 0⟩, 5, 20, ⟨0, 0⟩, ⟨0, 0⟩, ⟨0, 0⟩, 0, 0, 0⟩
def exSlack : SlideJoint ℚ := ⟨⟨1000, 1/2, 100⟩, ⟨0, 0⟩, ⟨0, 0⟩, 3, 9, ⟨0, 0⟩, ⟨0, 0⟩, ⟨0, 0⟩, 0, 0, 0⟩

example : Roped toyMth 0 1 exStrut (exProp (.slide exStrut)) ∧
    EveryStep toyMth exBalls3 (fun w t w' => Swings exBalls3 (1/4) 0 1 w t w' ∧ RopeHolds (1/4) 0 1 w' ∧ 0 < reach toyMth 0 1 exStrut.anchorA exStrut.anchorB w' ∧ reach toyMth 0 1 exStrut.anchorA exStrut.anchorB w' < exStrut.min)
      (exProp (.slide exStrut)) [exSpinTick, exSpinTick] ∧
    (let w1 := (exProp (.slide exStrut)).step toyMth exBalls3 exSpinTick
     EveryStep toyMth exBalls3 (fun w t w' => -0 ≤ surplus toyMth (1/4) 0 1 exStrut.anchorA exStrut.anchorB w w') w1 [exSpinTick] ∧
     (1 - toyMth.pow exStrut.errorBias (1/4)) * (exStrut.min - reach toyMth 0 1 exStrut.anchorA exStrut.anchorB w1) ≤ exStrut.maxBias * (1/4) ∧
     reach toyMth 0 1 exStrut.anchorA exStrut.anchorB w1 = 1 ∧ reach toyMth 0 1 exStrut.anchorA exStrut.anchorB (w1.step toyMth exBalls3 exSpinTick) = 3) := by
  refine ⟨⟨⟨by unfold Seated Placed; decide +kernel, by unfold Movable; decide +kernel⟩, ⟨exStrut, ⟨by decide, rfl⟩, rfl, rfl, rfl, rfl, rfl⟩⟩, ⟨⟨exSwings (by decide +kernel) (by decide +kernel), exRopeHolds (by decide +kernel), by decide +kernel, by decide +kernel⟩,
    ⟨exSwings (by decide +kernel) (by decide +kernel), exRopeHolds (by decide +kernel), by decide +kernel, by decide +kernel⟩, trivial⟩, ⟨by decide +kernel, trivial⟩, by decide +kernel, by decide +kernel, by decide +kernel⟩

example : Roped toyMth 0 1 exSlack (exTie (.slide exSlack)) ∧ Swings exBalls3 (1/4) 0 1 (exTie (.slide exSlack)) exSpinTick ((exTie (.slide exSlack)).step toyMth exBalls3 exSpinTick) ∧
    reach toyMth 0 1 exSlack.anchorA exSlack.anchorB ((exTie (.slide exSlack)).step toyMth exBalls3 exSpinTick) = 5 := by
  refine ⟨⟨⟨by unfold Seated Placed; decide +kernel, by unfold Movable; decide +kernel⟩, ⟨exSlack, ⟨by decide, rfl⟩, rfl, rfl, rfl, rfl, rfl⟩⟩, exSwings (by decide +kernel) (by decide +kernel), by decide +kernel⟩

end Cm
