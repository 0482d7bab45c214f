import Verif.Props.Tunnel
/-! # C125: a ball on a level floor slides until it rolls -/
set_option linter.unusedSectionVars false
set_option linter.unusedSimpArgs false
set_option linter.unusedVariables false

namespace Cm
open Spec
variable {K : Type} [Field K] [LinearOrder K] [IsStrictOrderedRing K]

namespace Spec
/-- A ball on a line: where it is, how fast it goes, and how fast it spins. -/
structure Rolled (K : Type) where
  x : K
  v : K
  w : K

/-- How fast the lowest point of a ball of radius `ρ` moves along a floor whose surface moves with the speed `c`. -/
def Rolled.slip (ρ c : K) (q : Rolled K) : K := q.v + ρ * q.w - c

/-- The value `s`, but not beyond `D` on either side. -/
def upTo (D s : K) : K := max (-D) (min s D)

/-- The motion of a ball with the inverse mass `mi` and the inverse moment `ii` in the time `dt` if the floor can take away the slip `D`. -/
def Rolled.next (ρ c mi ii D dt : K) (q : Rolled K) : Rolled K :=
  ⟨q.x + q.v * dt, q.v - upTo D (q.slip ρ c) * (mi / (mi + ii * ρ ^ 2)), q.w - upTo D (q.slip ρ c) * (ii * ρ / (mi + ii * ρ ^ 2))⟩

/-- The ball lies on the floor, not deeper than is allowed, and moves along it; gravity points down, and there is no damping. -/
structure LaidOn (M : Mth K) (sc : Scene K) (fig : Nat → Figure K) (bodies : Nat → Body K) (dt ρ r f x₁ x₂ g : K) (a b : V2 K) : Prop where
  floor : OverFloor M sc fig bodies dt ρ r f x₁ x₂ a b
  touch : (bodies (sc.figs 0).body).p.y < f + (ρ + r)
  slight : f + (ρ + r) - sc.par.slop ≤ (bodies (sc.figs 0).body).p.y
  above : f < (bodies (sc.figs 0).body).p.y
  level : (bodies (sc.figs 0).body).v.y = 0
  gravity : sc.par.gravity = ⟨0, -g⟩ ∧ 0 ≤ g
  undamped : M.pow sc.par.damping dt = 1
  free : (bodies (sc.figs 0).body).force = ⟨0, 0⟩ ∧ (bodies (sc.figs 0).body).torque = 0 ∧ (bodies (sc.figs 0).body).idle ≠ sc.par.inf
end Spec

theorem laws_slide {u jn jt vy gd mi ii ρ vx w vx' w' c : K} (hu : 0 ≤ u) (hg : 0 ≤ gd) (hm : 0 < mi) (hi : 0 ≤ ii) (hv : vy = -gd + jn * mi) (hvx : vx' = vx - jt * mi)
    (hw : w' = w - ii * ρ * jt) (h : NewtonCoulomb u jn jt 0 vy (c - vx' - w' * ρ)) :
    vy = 0 ∧ jt * (mi + ii * ρ ^ 2) = upTo (u * gd * (mi + ii * ρ ^ 2) / mi) (vx + ρ * w - c) := by
  have hk : 0 < mi + ii * ρ ^ 2 := by have := mul_nonneg hi (sq_nonneg ρ); linarith
  have hvy : vy = 0 := by
    rcases h.push.lt_or_eq with hj | hj
    · exact h.rebound hj
    · have := h.part hj.symm
      rw [← hj, zero_mul, add_zero] at hv
      linarith
  refine ⟨hvy, ?_⟩
  have hjn : jn = gd / mi := by field_simp; linarith
  generalize hkk : mi + ii * ρ ^ 2 = k at *
  have hD : u * gd * k / mi = u * jn * k := by rw [hjn]; ring
  rw [hD]
  have hslip : c - vx' - w' * ρ = jt * k - (vx + ρ * w - c) := by rw [hvx, hw, ← hkk]; ring
  rw [hslip] at h
  generalize vx + ρ * w - c = s at h ⊢
  have hD0 : 0 ≤ u * jn * k := mul_nonneg (mul_nonneg hu h.push) hk.le
  unfold upTo
  rcases lt_trichotomy (jt * k - s) 0 with hs | hs | hs
  · have hj := h.left hs
    rw [hj] at hs ⊢
    rw [min_eq_right (by linarith), max_eq_right (by linarith)]
  · obtain ⟨h1, h2⟩ := abs_le.1 h.cone
    have e1 := mul_le_mul_of_nonneg_right h1 hk.le
    have e2 := mul_le_mul_of_nonneg_right h2 hk.le
    rw [min_eq_left (by linarith), max_eq_right (by linarith)]
    linarith
  · have hj := h.right hs
    rw [hj] at hs ⊢
    rw [min_eq_left (by linarith), max_eq_left (by linarith)]
    ring

/-- What holds all the time: the ball is where, and moves as, `q` says. -/
structure Sliding (sc : Scene K) (bodies : Nat → Body K) (ro : Roster) (dt : K) (q : Rolled K) (w : World K) : Prop where
  upright : Upright sc ro w
  filed : Filed w
  unrefused : Unrefused w
  joints : w.joints = []
  barred : ∀ i j, w.barred i j = false
  known : Known w dt 0 1
  floor : w.bodies (sc.figs 1).body = bodies (sc.figs 1).body
  ball : (w.bodies (sc.figs 0).body).m = (bodies (sc.figs 0).body).m ∧ (w.bodies (sc.figs 0).body).mInv = (bodies (sc.figs 0).body).mInv ∧
    (w.bodies (sc.figs 0).body).iInv = (bodies (sc.figs 0).body).iInv ∧ (w.bodies (sc.figs 0).body).cog = (bodies (sc.figs 0).body).cog
  place : (w.bodies (sc.figs 0).body).p = ⟨q.x, (bodies (sc.figs 0).body).p.y⟩
  speed : (w.bodies (sc.figs 0).body).v = ⟨q.v, 0⟩ ∧ (w.bodies (sc.figs 0).body).w = q.w ∧ (w.bodies (sc.figs 0).body).vBias = ⟨0, 0⟩
  free : (w.bodies (sc.figs 0).body).force = ⟨0, 0⟩ ∧ (w.bodies (sc.figs 0).body).torque = 0 ∧ (w.bodies (sc.figs 0).body).idle ≠ sc.par.inf

/-- One step. -/
theorem sliding_step {M : Mth K} (hM : M.Lawful) {sc : Scene K} {fig : Nat → Figure K} (hm : Made M sc fig) (hper : 1 ≤ sc.persistence) {bodies : Nat → Body K}
    {dt ρ r f x₁ x₂ g : K} {a b : V2 K} (hl : LaidOn M sc fig bodies dt ρ r f x₁ x₂ g a b)
    {ro : Roster} (hro : ∀ i, ro i = if i = 1 then some false else if i = 0 then some true else none) {q : Rolled K}
    {w : World K} (hw : Sliding sc bodies ro dt q w) {t : Tick K} (ht : t.dt = dt ∧ t.dyn = [(sc.figs 0).body] ∧ t.order = [0] ∧ Accepting t)
    (hx : x₁ ≤ q.x + q.v * dt ∧ q.x + q.v * dt ≤ x₂) :
    let mi := (bodies (sc.figs 0).body).mInv
    let ii := (bodies (sc.figs 0).body).iInv
    Sliding sc bodies ro dt (q.next ρ ((sc.figs 1).surface.velocity.x - (sc.figs 0).surface.velocity.x) mi ii
      ((sc.figs 0).surface.friction * (sc.figs 1).surface.friction * (g * dt) * (mi + ii * ρ ^ 2) / mi) dt) (w.step M sc t) := by
  have h := hl.floor
  classical
  obtain ⟨t1, t2, t3, t4⟩ := ht
  have h0 : t.dt ≠ 0 := by rw [t1]; exact h.length.ne'
  have hro1 : ∀ i, ro i ≠ none → i = 0 ∨ i = 1 := by
    intro i hi; rw [hro] at hi
    by_cases h1 : i = 1
    · exact .inr h1
    · by_cases h0 : i = 0
      · exact .inl h0
      · rw [if_neg h1, if_neg h0] at hi; exact absurd rfl hi
  have heasy : AllEasy sc fig ro := by
    intro i j hi hj hd hbo
    rcases hro1 i hi with rfl | rfl <;> rcases hro1 j hj with rfl | rfl
    · exact absurd rfl hbo
    · rw [h.ball, h.rod]; exact trivial
    · rw [h.ball, h.rod]; exact trivial
    · exact absurd rfl hbo
  have t5 : WOk sc ro (.step t) := by
    refine ⟨by rw [t3]; simp, fun i => ?_, fun j hj => ?_⟩
    · rw [t3, hro]
      by_cases h1 : i = 1
      · subst h1; simp
      · by_cases h0 : i = 0
        · subst h0; simp
        · simp [h1, h0]
    · rw [t2, List.mem_singleton]
      rcases hro1 j (by rw [hj]; simp) with rfl | rfl
      · rw [hro] at hj; simp at hj
      · exact h.apart.symm
  intro mi ii
  obtain ⟨b1, b2, b3, b4⟩ := hw.ball
  obtain ⟨v1, w1, vb1, wb1⟩ := h.rest
  obtain ⟨m1, i1⟩ := h.fixed
  obtain ⟨-, -, g3, g4, g5⟩ := step_frame M sc t w h0
  obtain ⟨hbu, hcur⟩ := begun_upright hM hm hw.upright t t5
  have hbeg : ∀ k, (w.begun M sc t).bodies k = if k = (sc.figs 0).body then (w.bodies k).updatePosition M dt else w.bodies k := by
    intro k
    show (SolverState.positions M t.dyn t.dt ⟨w.bodies, [], w.joints⟩).bodies k = _
    simp only [SolverState.positions, t1, t2, List.mem_singleton]
  have hbeg0 : (w.begun M sc t).bodies (sc.figs 0).body = (w.bodies (sc.figs 0).body).updatePosition M dt := by rw [hbeg, if_pos rfl]
  have hbeg1 : (w.begun M sc t).bodies (sc.figs 1).body = bodies (sc.figs 1).body := by rw [hbeg, if_neg h.apart.symm, hw.floor]
  have hp0 : ((w.step M sc t).bodies (sc.figs 0).body).p = ((w.bodies (sc.figs 0).body).updatePosition M dt).p := by rw [(g5 _).2.1, hbeg0]
  have hcen : ((w.bodies (sc.figs 0).body).updatePosition M dt).tr.apply (bodies (sc.figs 0).body).cog = ((w.step M sc t).bodies (sc.figs 0).body).p := by
    rw [hp0, ← b4]; exact moved_centre hM (w.bodies (sc.figs 0).body) dt
  have hpy : ((w.step M sc t).bodies (sc.figs 0).body).p.y =
      (w.bodies (sc.figs 0).body).p.y + ((w.bodies (sc.figs 0).body).v.y + (w.bodies (sc.figs 0).body).vBias.y) * dt := by
    rw [hp0]; simp only [Body.updatePosition, Body.setTransform, V2.add, V2.scale]
  have hstill : (w.step M sc t).bodies (sc.figs 1).body = bodies (sc.figs 1).body := by
    rw [← hw.floor]
    refine C115_still M sc _ [.step t] w _ (by rw [hw.floor]; exact h.fixed) rfl (fun inp hi => ?_) (fun b hb => by simp at hb)
    simp only [List.mem_singleton, WorldOp.step.injEq] at hi
    rw [hi, t2, List.mem_singleton]; exact h.apart.symm
  have hsame : ((w.step M sc t).bodies (sc.figs 0).body).m = (bodies (sc.figs 0).body).m ∧ ((w.step M sc t).bodies (sc.figs 0).body).mInv = (bodies (sc.figs 0).body).mInv ∧
      ((w.step M sc t).bodies (sc.figs 0).body).iInv = (bodies (sc.figs 0).body).iInv ∧ ((w.step M sc t).bodies (sc.figs 0).body).cog = (bodies (sc.figs 0).body).cog := by
    have hs := step_same M sc t w h0 (sc.figs 0).body
    rw [if_pos (by rw [t2]; exact List.mem_cons_self)] at hs
    rw [← b1, ← b2, ← b3, ← b4]
    refine ⟨(congrArg Body.m hs).trans ?_, (congrArg Body.mInv hs).trans ?_, (congrArg Body.iInv hs).trans ?_, (congrArg Body.cog hs).trans ?_⟩ <;>
      (dsimp only; unfold Body.updateVelocity; split <;> rfl)
  have hjoints : (w.step M sc t).joints = [] := by
    obtain ⟨-, e, -⟩ := C111_step M sc t w ⟨w.bodies, [], w.joints⟩ rfl rfl
    have e' := step_ends M sc.par w.prevDT ⟨t.dt, t.dyn, collisions M sc t w⟩ ⟨w.bodies, [], w.joints⟩
    rw [← e, hw.joints] at e'
    exact List.map_eq_nil_iff.1 e'
  have hc := calls_apart hM hm hw.upright t t5
  obtain ⟨w2, ew2, hu'⟩ := run1_upright hM hm hw.upright (.step t) t5
  obtain rfl := Option.some.inj ew2
  have hr0 : 0 ≤ ρ := by have := (hm 0).1; rw [h.ball] at this; exact this
  have hr1 : 0 ≤ r := by have := (hm 1).1; rw [h.rod] at this; exact this.1
  have tr0 : ((w.step M sc t).bodies (sc.figs 0).body).tr = ((w.bodies (sc.figs 0).body).updatePosition M dt).tr := by rw [(g5 _).2.2.2, hbeg0]
  have tr1 : ((w.step M sc t).bodies (sc.figs 1).body).tr = (bodies (sc.figs 1).body).tr := by rw [(g5 _).2.2.2, hbeg1]
  obtain ⟨fd, fd1, fd2, fd3⟩ := step_exact hM hm hw.upright t t5 h0 (finds_detects hM hm hw.upright t t5 (.inl heasy))
  have hpq : ((w.step M sc t).bodies (sc.figs 0).body).p = ⟨q.x + q.v * dt, (bodies (sc.figs 0).body).p.y⟩ := by
    rw [hp0]
    simp only [Body.updatePosition, Body.setTransform, V2.add, V2.scale, hw.place, hw.speed.1, hw.speed.2.2]
    apply V2.ext <;> dsimp only <;> ring
  have hon : ((w.step M sc t).bodies (sc.figs 0).body).p.y - f < ρ + r := by rw [hpq]; linarith [hl.touch]
  have habove : 0 < ((w.step M sc t).bodies (sc.figs 0).body).p.y - f := by rw [hpq]; linarith [hl.above]
  replace hx : x₁ ≤ ((w.step M sc t).bodies (sc.figs 0).body).p.x ∧ ((w.step M sc t).bodies (sc.figs 0).body).p.x ≤ x₂ := by rw [hpq]; exact hx
  generalize hP : ((w.step M sc t).bodies (sc.figs 0).body).p = P at *
  have hcoll : Colliding sc fig ro (w.step M sc t) 0 1 := by
    refine ⟨by decide, by rw [hro]; simp, by rw [hro]; simp, .inl (by rw [hro]; simp), h.apart, h.accepts, by rw [g3]; exact hw.barred _ _, ?_⟩
    rw [tr0, tr1, h.ball, h.rod]
    have hd : 0 < x₂ - x₁ := sub_pos.2 h.wide
    refine ⟨_, At a b ((P.x - x₁) / (x₂ - x₁)), rfl, ⟨_, div_nonneg (by linarith [hx.1]) hd.le, (div_le_one hd).2 (by linarith [hx.2]), rfl⟩, ?_⟩
    have hq : (bodies (sc.figs 1).body).tr.apply (At a b ((P.x - x₁) / (x₂ - x₁))) = ⟨P.x, f⟩ := by
      rw [apply_at, h.left, h.right]
      have := div_mul_cancel₀ (P.x - x₁) hd.ne'
      apply V2.ext
      · show _ + _ * _ = _
        rw [this]; ring
      · show _ + _ * (_ - _) = _
        ring
    have hlt : dist2 (((w.bodies (sc.figs 0).body).updatePosition M dt).tr.apply (bodies (sc.figs 0).body).cog) ⟨P.x, f⟩ < (ρ + r) * (ρ + r) := by
      rw [hcen]
      have := mul_self_lt_mul_self habove.le hon
      simp only [dist2]
      nlinarith
    rw [hq]
    exact ⟨hlt.le, fun _ => hlt⟩
  obtain ⟨p, rfl, hp⟩ := only_pair fd1 ((fd2 0 1).2 hcoll) (fun p hp => by
    obtain ⟨c1, c2, c3, -⟩ := (fd2 p.1 p.2).1 ⟨p, hp, .inl rfl⟩
    obtain ⟨i, j⟩ := p
    rcases hro1 i c2 with rfl | rfl <;> rcases hro1 j c3 with rfl | rfl
    · exact absurd rfl c1
    · exact .inl rfl
    · exact .inr rfl
    · exact absurd rfl c1)
  have hwant : Wanted sc t w p := by
    rw [wanted_iff t4 hw.unrefused]
    have hmass : ¬ ((w.bodies (sc.figs 0).body).m = sc.par.inf ∧ (w.bodies (sc.figs 1).body).m = sc.par.inf) := fun hh => h.moved.1 (by rw [← b1]; exact hh.1)
    rcases hp with rfl | rfl
    · exact ⟨h.sensor.1, h.sensor.2, hmass⟩
    · exact ⟨h.sensor.2, h.sensor.1, fun hh => hmass ⟨hh.2, hh.1⟩⟩
  have hact : (w.step M sc t).active = [p] := by rw [fd3]; simp [hwant]
  have hrr0 : ro 0 ≠ none := by rw [hro]; simp
  have hrr1 : ro 1 ≠ none := by rw [hro]; simp
  have hp01 : p = (0, 1) := by
    rcases hp with hp | hp
    · exact hp
    · refine absurd ?_ (ball_first hM hm hper hw.upright hw.filed t5 h0 hrr0 hrr1 h.ball h.rod)
      rw [hact, hp]; exact List.mem_cons_self
  subst hp01
  have hlev : ∀ sw id, circleToSegment M ⟨(bodies (sc.figs 0).body).cog, ((w.bodies (sc.figs 0).body).updatePosition M dt).tr.apply (bodies (sc.figs 0).body).cog, ρ⟩
      ((Segment.new M a b r).cache (bodies (sc.figs 1).body).tr).1 ⟨(bodies (sc.figs 1).body).tr.a, (bodies (sc.figs 1).body).tr.b⟩ ⟨sw, id, V2.zero, []⟩ =
      ⟨sw, id, ⟨0, -1⟩, [⟨⟨P.x, P.y - ρ⟩, ⟨P.x, f + r⟩, 0⟩]⟩ := by
    intro sw id
    rw [hcen]
    have e1 : ((Segment.new M a b r).cache (bodies (sc.figs 1).body).tr).1.ta = ⟨x₁, f⟩ := h.left
    have e2 : ((Segment.new M a b r).cache (bodies (sc.figs 1).body).tr).1.tb = ⟨x₂, f⟩ := h.right
    have := on_level hM (bodies (sc.figs 0).body).cog P.x P.y ρ ((Segment.new M a b r).cache (bodies (sc.figs 1).body).tr).1 ⟨(bodies (sc.figs 1).body).tr.a, (bodies (sc.figs 1).body).tr.b⟩ sw id
      (by rw [e1, e2]) (by rw [e1, e2]; exact h.wide) (by rw [e1]; exact hx.1) (by rw [e2]; exact hx.2) rfl rfl (by rw [e1]; exact habove) (by rw [e1]; exact hon)
    rw [e1] at this
    exact this
  have hpos0 : ((w.bodies (sc.figs 0).body).updatePosition M dt).p = P := hp0.symm
  obtain ⟨c, -, -, c1, c2, law, exch, drawn⟩ := impact hM hm hper h.iterations hw.upright hw.filed t5 h0 (i := 0) (j := 1) (by rw [hact]; exact List.mem_cons_self)
    ⟨fun x hx hne => absurd (by rw [hact] at hx; exact List.mem_singleton.1 hx) hne, fun l hl => by rw [hw.joints] at hl; cases hl⟩
    (by rw [hw.floor]; exact ⟨by rw [b2]; exact h.moved.2.1.le, m1.ge, by rw [b3]; exact h.moved.2.2, i1.ge, by rw [b2, m1, add_zero]; exact h.moved.2.1⟩)
    h.friction (n := ⟨0, -1⟩) (r1 := ⟨0, -ρ⟩) (r2 := ⟨P.x - (bodies (sc.figs 1).body).p.x, f + r - (bodies (sc.figs 1).body).p.y⟩)
    (fun p info hhit hpair => by
      obtain ⟨-, nb1, id, col⟩ := hit_collide hbu.proper hhit
      have hp' : p = (0, 1) ∨ p = (1, 0) := by
        unfold Info.pair at hpair
        split at hpair
        · exact .inr (Prod.ext (congrArg Prod.snd hpair) (congrArg Prod.fst hpair))
        · exact .inl hpair
      rw [hbeg0, hbeg1, hpos0]
      rcases hp' with rfl | rfl
      · dsimp only at col
        rw [hcur _ hrr0, hcur _ hrr1, (hm _).2, (hm _).2, h.ball, h.rod, ball_rod, hbeg0, hbeg1, hlev] at col
        obtain rfl := Option.some.inj col
        exact ⟨rfl, _, rfl, by simp [V2.sub], rfl⟩
      · dsimp only at col
        rw [hcur _ hrr0, hcur _ hrr1, (hm _).2, (hm _).2, h.ball, h.rod, rod_ball, hbeg0, hbeg1, hlev] at col
        obtain rfl := Option.some.inj col
        exact ⟨rfl, _, rfl, by simp [V2.sub], rfl⟩)
    (by norm_num) (by rw [hw.floor]; exact ⟨by simp, by rw [i1, zero_mul]⟩)
  obtain ⟨⟨d1, -⟩, -⟩ := drawn (by
    intro k hk hkd
    rw [t2, List.mem_singleton] at hkd
    rcases hk with hk | hk
    · exact absurd hk hkd
    · rw [hk, hw.floor]; exact ⟨vb1, wb1⟩) (by rw [t1]; exact h.length) (by rw [t1]; exact h.rate)
  -- what comes of it
  have hmi0 := h.moved.2.1
  have htype : (w.bodies (sc.figs 0).body).type sc.par.inf ≠ .kinematic := falls_type ⟨by rw [b1]; exact h.moved.1, hw.free.2.2⟩
  have hcoast : (coast M sc.par t.dyn t.dt (sc.figs 0).body (w.bodies (sc.figs 0).body)).v = ⟨q.v, -(g * dt)⟩ ∧
      (coast M sc.par t.dyn t.dt (sc.figs 0).body (w.bodies (sc.figs 0).body)).w = q.w ∧
      (coast M sc.par t.dyn t.dt (sc.figs 0).body (w.bodies (sc.figs 0).body)).mInv = (bodies (sc.figs 0).body).mInv ∧
      (coast M sc.par t.dyn t.dt (sc.figs 0).body (w.bodies (sc.figs 0).body)).iInv = (bodies (sc.figs 0).body).iInv := by
    unfold coast
    rw [if_pos ⟨by rw [t2]; exact List.mem_cons_self, htype⟩]
    simp only [hw.speed.1, hw.speed.2.1, hw.free.1, hw.free.2.1, hl.gravity.1, t1, hl.undamped]
    refine ⟨by apply V2.ext <;> dsimp only <;> ring, by ring, b2, b3⟩
  obtain ⟨⟨e1, e2⟩, -⟩ := exch (by rw [t1]; exact hw.known)
  rw [hcoast.1, hcoast.2.2.1] at e1
  rw [hcoast.2.1, hcoast.2.2.2, c1] at e2
  unfold Lawful at law
  rw [hstill, hw.floor, c1] at law
  obtain ⟨l1, l2⟩ := laws_slide (vy := ((w.step M sc t).bodies (sc.figs 0).body).v.y) (vx' := ((w.step M sc t).bodies (sc.figs 0).body).v.x) (vx := q.v) (w := q.w)
    (w' := ((w.step M sc t).bodies (sc.figs 0).body).w) (gd := g * dt) (jn := c.jnAcc) (jt := c.jtAcc) (ρ := ρ) (c := (sc.figs 1).surface.velocity.x - (sc.figs 0).surface.velocity.x)
    h.friction (mul_nonneg hl.gravity.2 h.length.le) h.moved.2.1 h.moved.2.2
    (by rw [e1]; dsimp only; ring) (by rw [e1]; dsimp only; ring) (by rw [e2]; dsimp only; ring) (by
      have s1 : Spec.speed (w.bodies (sc.figs 0).body) (bodies (sc.figs 1).body) ⟨0, -ρ⟩ c.r2 ⟨0, -1⟩ = 0 := by
        simp only [Spec.speed, v1, w1, hw.speed.1]; ring
      rw [s1, mul_zero, neg_zero] at law
      have s2 : Spec.speed ((w.step M sc t).bodies (sc.figs 0).body) (bodies (sc.figs 1).body) ⟨0, -ρ⟩ c.r2 ⟨0, -1⟩ = ((w.step M sc t).bodies (sc.figs 0).body).v.y := by
        simp only [Spec.speed, v1, w1]; ring
      rw [s2] at law
      convert law using 1
      simp only [Spec.speed, v1, w1, V2.perp]; ring)
  have hk : 0 < mi + ii * ρ ^ 2 := by have := mul_nonneg h.moved.2.2 (sq_nonneg ρ); show 0 < (bodies (sc.figs 0).body).mInv + (bodies (sc.figs 0).body).iInv * ρ ^ 2; linarith
  have hs := step_same M sc t w h0 (sc.figs 0).body
  rw [if_pos (by rw [t2]; exact List.mem_cons_self), t1] at hs
  have htype' : ((w.bodies (sc.figs 0).body).updatePosition M dt).type sc.par.inf ≠ .kinematic := falls_type ⟨by
    rw [show ((w.bodies (sc.figs 0).body).updatePosition M dt).m = _ from b1]; exact h.moved.1, hw.free.2.2⟩
  refine ⟨hu', step_filed M sc hper t w h0 hw.filed.one hc, step_unrefused M (sc := sc) t4 h0 hw.filed.one hw.unrefused, hjoints, fun i j => by rw [g3]; exact hw.barred i j, ?_, hstill, hsame, ?_, ?_, ?_⟩
  · right
    refine ⟨by rw [hact]; exact List.mem_cons_self, ?_⟩
    unfold World.step
    rw [if_neg h0]; exact t1
  · rw [hP]; exact hpq
  · refine ⟨V2.ext ?_ l1, ?_, ?_⟩
    · rw [e1]
      show q.v + _ * (bodies (sc.figs 0).body).mInv = q.v - upTo _ (q.slip ρ _) * (mi / (mi + ii * ρ ^ 2))
      unfold Rolled.slip
      rw [← l2]
      show _ = q.v - c.jtAcc * (mi + ii * ρ ^ 2) * (mi / (mi + ii * ρ ^ 2))
      rw [mul_assoc, mul_div_cancel₀ _ hk.ne']
      show q.v + _ * mi = _
      ring
    · rw [e2]
      show q.w + (bodies (sc.figs 0).body).iInv * _ = q.w - upTo _ (q.slip ρ _) * (ii * ρ / (mi + ii * ρ ^ 2))
      unfold Rolled.slip
      rw [← l2]
      show _ = q.w - c.jtAcc * (mi + ii * ρ ^ 2) * (ii * ρ / (mi + ii * ρ ^ 2))
      rw [mul_assoc, mul_div_cancel₀ _ hk.ne']
      show q.w + ii * _ = _
      dsimp only
      ring
    · have hpast : past ⟨0, -1⟩ ((w.step M sc t).bodies (sc.figs 0).body) ((w.step M sc t).bodies (sc.figs 1).body) c = ρ + r - ((bodies (sc.figs 0).body).p.y - f) := by
        unfold past; rw [c1, c2, hP, hpq, hstill]; dsimp only; ring
      rw [d1, hpast, max_eq_left (by linarith [hl.slight])]
      apply V2.ext <;> simp
  · refine ⟨(congrArg Body.force (show _ = _ from hs)).trans ?_, (congrArg Body.torque (show _ = _ from hs)).trans ?_, ?_⟩
    · dsimp only; unfold Body.updateVelocity; rw [if_neg htype']; rfl
    · dsimp only; unfold Body.updateVelocity; rw [if_neg htype']
    · rw [show ((w.step M sc t).bodies (sc.figs 0).body).idle = (w.bodies (sc.figs 0).body).idle from (congrArg Body.idle (show _ = _ from hs)).trans (by
        dsimp only; unfold Body.updateVelocity; rw [if_neg htype']; rfl)]
      exact hw.free.2.2

/-- How the ball moves at first. -/
def Spec.laidMotion (sc : Scene K) (bodies : Nat → Body K) : Rolled K := ⟨(bodies (sc.figs 0).body).p.x, (bodies (sc.figs 0).body).v.x, (bodies (sc.figs 0).body).w⟩

/-- The motion after each step in the time `dt` under the gravity `g`: of the slip the friction `μ` takes away `μ g dt (1 + m ρ² / I)`, or what there is. -/
def Spec.laidNext (sc : Scene K) (bodies : Nat → Body K) (ρ g dt : K) : Rolled K → Rolled K :=
  let mi := (bodies (sc.figs 0).body).mInv
  let ii := (bodies (sc.figs 0).body).iInv
  Rolled.next ρ ((sc.figs 1).surface.velocity.x - (sc.figs 0).surface.velocity.x) mi ii ((sc.figs 0).surface.friction * (sc.figs 1).surface.friction * (g * dt) * (mi + ii * ρ ^ 2) / mi) dt

/-- **C125.** A ball that has been put on a level floor with any speed along it and any spin moves, as long as it is on the floor, exactly by Coulomb's law of friction, and stays at its height. -/
theorem C125_motion {M : Mth K} (hM : M.Lawful) {sc : Scene K} {fig : Nat → Figure K} (hm : Made M sc fig) (hper : 1 ≤ sc.persistence) (bodies : Nat → Body K)
    (shapes : Nat → CShape K) (hs : ∀ i, (shapes i).bb.L ≤ (shapes i).bb.R ∧ (shapes i).bb.B ≤ (shapes i).bb.T)
    {dt ρ r f x₁ x₂ g : K} {a b : V2 K} (h : LaidOn M sc fig bodies dt ρ r f x₁ x₂ g a b)
    (ticks : List (Tick K)) (ht : ∀ t ∈ ticks, t.dt = dt ∧ t.dyn = [(sc.figs 0).body] ∧ t.order = [0] ∧ Accepting t)
    (hx : ∀ n ≤ ticks.length, x₁ ≤ ((laidNext sc bodies ρ g dt)^[n] (laidMotion sc bodies)).x ∧ ((laidNext sc bodies ρ g dt)^[n] (laidMotion sc bodies)).x ≤ x₂) :
    ∃ w, (World.init bodies shapes).run M sc (twoOps false ++ ticks.map .step) = some w ∧
      let q := (laidNext sc bodies ρ g dt)^[ticks.length] (laidMotion sc bodies)
      (w.bodies (sc.figs 0).body).p = ⟨q.x, (bodies (sc.figs 0).body).p.y⟩ ∧ (w.bodies (sc.figs 0).body).v = ⟨q.v, 0⟩ ∧ (w.bodies (sc.figs 0).body).w = q.w := by
  have hl : WLegal sc (fun _ => none) (twoOps (K := K) false) := by
    refine ⟨rfl, ?_, trivial⟩
    simp [WOk, rosterStep, Roster.set]
  obtain ⟨w, e, hu, hfi⟩ := run_filed hM hm hper _ _ _ (init_upright sc bodies shapes h.floor.rigid hs) ⟨List.Pairwise.nil, List.Pairwise.nil, (fun p hp => by cases hp)⟩ hl
  obtain ⟨w1, w2, w3, w4⟩ := put_two M sc bodies shapes e
  have s0 : Sliding sc bodies (rosterAfter (fun _ => none) (twoOps (K := K) false)) dt (laidMotion sc bodies) w := by
    refine ⟨hu, hfi, (by intro x hx; rw [w2] at hx; cases hx), w3, w4, .inl (by intro o ho; rw [w2] at ho; cases ho), by rw [w1], by rw [w1]; exact ⟨rfl, rfl, rfl, rfl⟩, by rw [w1]; rfl,
      by rw [w1]; exact ⟨V2.ext rfl h.level, rfl, h.floor.unbiased⟩, by rw [w1]; exact h.free⟩
  rw [run_append, e]
  show ∃ w', w.run M sc (ticks.map .step) = some w' ∧ _
  have hro := two_roster (K := K) false
  generalize rosterAfter (fun _ => none) (twoOps (K := K) false) = ro at s0 hro
  clear e w1 w2 w3 w4 hu hfi
  suffices H : ∃ w', w.run M sc (ticks.map .step) = some w' ∧ Sliding sc bodies ro dt ((laidNext sc bodies ρ g dt)^[ticks.length] (laidMotion sc bodies)) w' by
    obtain ⟨w', e, hw⟩ := H
    exact ⟨w', e, hw.place, hw.speed.1, hw.speed.2.1⟩
  generalize laidMotion sc bodies = q at s0 hx ⊢
  induction ticks generalizing w q with
  | nil => exact ⟨w, rfl, s0⟩
  | cons t ts ih =>
    have st := sliding_step hM hm hper h hro s0 (ht t List.mem_cons_self) (hx 1 (by simp))
    exact ih (fun x hx => ht x (List.mem_cons_of_mem _ hx)) (w.step M sc t) (laidNext sc bodies ρ g dt q) st
      (fun n hn => by rw [← Function.iterate_succ_apply]; exact hx (n + 1) (by simpa using hn))

/-! ## What the motion is -/

theorem upTo_zero (s : K) : upTo 0 s = 0 := by
  unfold upTo
  rw [neg_zero]
  exact max_eq_left (min_le_right _ _)

theorem upTo_add {E D s : K} (hE : 0 ≤ E) (hD : 0 ≤ D) : upTo E s + upTo D (s - upTo E s) = upTo (E + D) s := by
  unfold upTo
  rcases le_total s E with h1 | h1
  · rcases le_total (-E) s with h2 | h2
    · rw [min_eq_left h1, max_eq_right h2, sub_self, min_eq_left hD, max_eq_right (by linarith), min_eq_left (by linarith), max_eq_right (by linarith), add_zero]
    · rw [min_eq_left h1, max_eq_left h2, min_eq_left (by linarith : s - -E ≤ D), min_eq_left (by linarith)]
      rcases le_total (-D) (s - -E) with h3 | h3
      · rw [max_eq_right h3, max_eq_right (by linarith)]; ring
      · rw [max_eq_left h3, max_eq_left (by linarith)]; ring
  · rw [min_eq_right h1, max_eq_right (by linarith)]
    rcases le_total (s - E) D with h3 | h3
    · rw [min_eq_left h3, max_eq_right (by linarith), min_eq_left (by linarith), max_eq_right (by linarith)]; ring
    · rw [min_eq_right h3, max_eq_right (by linarith), min_eq_right (by linarith), max_eq_right (by linarith)]

/-- **C125.** After `n` steps the friction has taken away `n` times what it can take in a step, or all of the slip, and has changed the speed and the spin in proportion; so the angular momentum
about the point of contact stays the same. -/
theorem C125_slip {ρ c mi ii D dt : K} (hm : 0 < mi) (hi : 0 ≤ ii) (hD : 0 ≤ D) (q : Rolled K) (n : Nat) :
    let q' := (Rolled.next ρ c mi ii D dt)^[n] q
    q'.slip ρ c = q.slip ρ c - upTo (n * D) (q.slip ρ c) ∧ q'.v = q.v - upTo (n * D) (q.slip ρ c) * (mi / (mi + ii * ρ ^ 2)) ∧
      q'.w = q.w - upTo (n * D) (q.slip ρ c) * (ii * ρ / (mi + ii * ρ ^ 2)) := by
  have hk : mi + ii * ρ ^ 2 ≠ 0 := by have := mul_nonneg hi (sq_nonneg ρ); exact (by linarith : 0 < mi + ii * ρ ^ 2).ne'
  suffices H : ((Rolled.next ρ c mi ii D dt)^[n] q).v = q.v - upTo (n * D) (q.slip ρ c) * (mi / (mi + ii * ρ ^ 2)) ∧
      ((Rolled.next ρ c mi ii D dt)^[n] q).w = q.w - upTo (n * D) (q.slip ρ c) * (ii * ρ / (mi + ii * ρ ^ 2)) by
    refine ⟨?_, H⟩
    rw [Rolled.slip, H.1, H.2]
    generalize upTo (n * D) (q.slip ρ c) = z
    unfold Rolled.slip
    field_simp
    ring
  induction n with
  | zero =>
    rw [Nat.cast_zero, zero_mul, upTo_zero]
    simp
  | succ n ih =>
    rw [Function.iterate_succ_apply']
    have hs : ((Rolled.next ρ c mi ii D dt)^[n] q).slip ρ c = q.slip ρ c - upTo (n * D) (q.slip ρ c) := by
      rw [Rolled.slip, ih.1, ih.2]
      generalize upTo (n * D) (q.slip ρ c) = z
      unfold Rolled.slip
      field_simp
      ring
    have hadd := upTo_add (s := q.slip ρ c) (mul_nonneg (Nat.cast_nonneg n) hD : (0 : K) ≤ n * D) hD
    unfold Rolled.next at hs ⊢
    dsimp only
    unfold Rolled.next at ih
    rw [hs, ih.1, ih.2, Nat.cast_succ, add_mul, one_mul, ← hadd]
    constructor <;> ring

/-- **C125.** Once the friction has had the time to take all the slip away, the ball rolls: its lowest point moves with the surface of the floor, and it goes on for ever with the same speed and spin,
which depend on the first ones only. -/
theorem C125_rolls {ρ c mi ii D dt : K} (hm : 0 < mi) (hi : 0 ≤ ii) (hD : 0 ≤ D) (q : Rolled K) {N n : Nat} (hN : |q.slip ρ c| ≤ N * D) (hn : N ≤ n) :
    let q' := (Rolled.next ρ c mi ii D dt)^[n] q
    q'.v + ρ * q'.w = c ∧ q'.v = q.v - q.slip ρ c * (mi / (mi + ii * ρ ^ 2)) ∧ q'.w = q.w - q.slip ρ c * (ii * ρ / (mi + ii * ρ ^ 2)) ∧
      q'.x = ((Rolled.next ρ c mi ii D dt)^[N] q).x + (n - N) * (q'.v * dt) := by
  have up : ∀ k : Nat, N ≤ k → upTo (k * D) (q.slip ρ c) = q.slip ρ c := by
    intro k hk
    obtain ⟨h1, h2⟩ := abs_le.1 hN
    have : (N : K) * D ≤ k * D := mul_le_mul_of_nonneg_right (Nat.cast_le.2 hk) hD
    unfold upTo
    rw [min_eq_left (by linarith), max_eq_right (by linarith)]
  have vel : ∀ k : Nat, N ≤ k → ((Rolled.next ρ c mi ii D dt)^[k] q).v = q.v - q.slip ρ c * (mi / (mi + ii * ρ ^ 2)) := by
    intro k hk
    rw [(C125_slip hm hi hD q k).2.1, up k hk]
  obtain ⟨s1, s2, s3⟩ := C125_slip (dt := dt) (c := c) (ρ := ρ) hm hi hD q n
  rw [up n hn] at s1 s2 s3
  refine ⟨?_, s2, s3, ?_⟩
  · rw [sub_self, Rolled.slip] at s1
    linarith
  · rw [s2]
    clear s1 s2 s3
    induction n, hn using Nat.le_induction with
    | base => simp
    | succ n hn ih =>
      rw [Function.iterate_succ_apply']
      show ((Rolled.next ρ c mi ii D dt)^[n] q).x + ((Rolled.next ρ c mi ii D dt)^[n] q).v * dt = _
      rw [ih, vel n hn]
      push_cast
      ring

/-- **C125.** While the ball slips it is slowed down evenly: by the friction times the gravity. -/
theorem C125_slides {ρ c mi ii D dt : K} (hm : 0 < mi) (hi : 0 ≤ ii) (hD : 0 ≤ D) (q : Rolled K) {n : Nat} (hn : n * D ≤ q.slip ρ c) :
    let q' := (Rolled.next ρ c mi ii D dt)^[n] q
    q'.v = q.v - n * (D * (mi / (mi + ii * ρ ^ 2))) ∧ q'.w = q.w - n * (D * (ii * ρ / (mi + ii * ρ ^ 2))) ∧
      q'.x = q.x + n * (q.v * dt) - n * (n - 1) / 2 * (D * (mi / (mi + ii * ρ ^ 2)) * dt) := by
  have up : ∀ k : Nat, k ≤ n → upTo (k * D) (q.slip ρ c) = k * D := by
    intro k hk
    have : (k : K) * D ≤ n * D := mul_le_mul_of_nonneg_right (Nat.cast_le.2 hk) hD
    have h0 := mul_nonneg (Nat.cast_nonneg (α := K) k) hD
    unfold upTo
    rw [min_eq_right (by linarith), max_eq_right (by linarith)]
  obtain ⟨-, s2, s3⟩ := C125_slip (dt := dt) (c := c) (ρ := ρ) hm hi hD q n
  rw [up n le_rfl] at s2 s3
  refine ⟨by rw [s2]; ring, by rw [s3]; ring, ?_⟩
  have pos : ∀ k : Nat, k ≤ n → ((Rolled.next ρ c mi ii D dt)^[k] q).x = q.x + k * (q.v * dt) - k * (k - 1) / 2 * (D * (mi / (mi + ii * ρ ^ 2)) * dt) := by
    intro k
    induction k with
    | zero => intro _; simp
    | succ k ih =>
      intro hk
      have hk' : k ≤ n := by omega
      rw [Function.iterate_succ_apply']
      show ((Rolled.next ρ c mi ii D dt)^[k] q).x + ((Rolled.next ρ c mi ii D dt)^[k] q).v * dt = _
      rw [ih hk', (C125_slip hm hi hD q k).2.1, up k hk']
      push_cast
      ring
  exact pos n le_rfl

/-- **C125.** The same of the whole simulation: after enough steps the ball rolls with the surface of the floor, with the speed that the first motion determines. -/
theorem C125_settles {M : Mth K} (hM : M.Lawful) {sc : Scene K} {fig : Nat → Figure K} (hm : Made M sc fig) (hper : 1 ≤ sc.persistence) (bodies : Nat → Body K)
    (shapes : Nat → CShape K) (hs : ∀ i, (shapes i).bb.L ≤ (shapes i).bb.R ∧ (shapes i).bb.B ≤ (shapes i).bb.T)
    {dt ρ r f x₁ x₂ g μ mi ii c s : K} {a b : V2 K} (h : LaidOn M sc fig bodies dt ρ r f x₁ x₂ g a b)
    (hμ : μ = (sc.figs 0).surface.friction * (sc.figs 1).surface.friction) (hmi : mi = (bodies (sc.figs 0).body).mInv) (hii : ii = (bodies (sc.figs 0).body).iInv)
    (hc : c = (sc.figs 1).surface.velocity.x - (sc.figs 0).surface.velocity.x) (hs0 : s = (bodies (sc.figs 0).body).v.x + ρ * (bodies (sc.figs 0).body).w - c)
    (ticks : List (Tick K)) (ht : ∀ t ∈ ticks, t.dt = dt ∧ t.dyn = [(sc.figs 0).body] ∧ t.order = [0] ∧ Accepting t)
    (hN : |s| * mi ≤ ticks.length * (μ * (g * dt)) * (mi + ii * ρ ^ 2))
    (hx : ∀ n ≤ ticks.length, x₁ ≤ ((laidNext sc bodies ρ g dt)^[n] (laidMotion sc bodies)).x ∧ ((laidNext sc bodies ρ g dt)^[n] (laidMotion sc bodies)).x ≤ x₂) :
    ∃ w, (World.init bodies shapes).run M sc (twoOps false ++ ticks.map .step) = some w ∧
      (w.bodies (sc.figs 0).body).v = ⟨(bodies (sc.figs 0).body).v.x - s * (mi / (mi + ii * ρ ^ 2)), 0⟩ ∧
      (w.bodies (sc.figs 0).body).v.x + ρ * (w.bodies (sc.figs 0).body).w = c ∧ (w.bodies (sc.figs 0).body).p.y = (bodies (sc.figs 0).body).p.y := by
  obtain ⟨w, e, h1, h2, h3⟩ := C125_motion hM hm hper bodies shapes hs h ticks ht hx
  have m0 := h.floor.moved.2.1
  have i0 := h.floor.moved.2.2
  rw [← hmi] at m0
  rw [← hii] at i0
  have hk : 0 < mi + ii * ρ ^ 2 := by have := mul_nonneg i0 (sq_nonneg ρ); linarith
  have hD : 0 ≤ μ * (g * dt) * (mi + ii * ρ ^ 2) / mi :=
    div_nonneg (mul_nonneg (mul_nonneg (by rw [hμ]; exact h.floor.friction) (mul_nonneg h.gravity.2 h.floor.length.le)) hk.le) m0.le
  have hq : (laidMotion sc bodies).slip ρ c = s := hs0.symm
  obtain ⟨r1, r2, r3, -⟩ := C125_rolls (ρ := ρ) (c := c) (dt := dt) m0 i0 hD (laidMotion sc bodies) (N := ticks.length) (n := ticks.length) (by
    rw [hq]
    have := (le_div_iff₀ m0).2 hN
    refine this.trans (le_of_eq ?_)
    ring) le_rfl
  rw [hq] at r2
  have hnext : laidNext sc bodies ρ g dt = Rolled.next ρ c mi ii (μ * (g * dt) * (mi + ii * ρ ^ 2) / mi) dt := by
    unfold laidNext
    rw [hc, hmi, hii, hμ]
  rw [hnext] at h1 h2 h3
  refine ⟨w, e, ?_, ?_, by rw [h1]⟩
  · rw [h2, r2]; rfl
  · rw [h2, h3]; exact r1

/-- A ball that is pushed along the floor of `exLying` without spin. -/
noncomputable def exPushedBodies (k : Nat) : Body ℝ :=
  if k = 0 then { Body.blank with m := 2, mInv := 1/2, i := 1, iInv := 1, p := ⟨3, 7/32⟩, v := ⟨3, 0⟩, tr := ⟨1, 0, 0, 1, 3, 7/32⟩ }
  else { Body.blank with m := 100000, i := 100000, idle := 100000 }

theorem exPushed_laid : LaidOn realMth exLying exLyingFig exPushedBodies (1/60) 1 (1/4) (-1) (-9) 9 10 ⟨-9, -1⟩ ⟨9, -1⟩ := by
  have hcog : (exPushedBodies 0).cog = ⟨0, 0⟩ := rfl
  have h0 : (exLying.figs 0).body = 0 := rfl
  have h1 : (exLying.figs 1).body = 1 := rfl
  have b0 : exPushedBodies 0 = { Body.blank with m := 2, mInv := 1/2, i := 1, iInv := 1, p := ⟨3, 7/32⟩, v := ⟨3, 0⟩, tr := ⟨1, 0, 0, 1, 3, 7/32⟩ } := if_pos rfl
  have b1 : ∀ k, k ≠ 0 → exPushedBodies k = { Body.blank with m := 100000, i := 100000, idle := 100000 } := fun k hk => if_neg hk
  constructor
  case floor =>
    constructor
    case ball => simp [exLyingFig, h0, hcog]
    case rod => simp [exLyingFig]
    case apart => simp [h0, h1]
    case rigid =>
      intro k
      by_cases hk : k = 0
      · subst hk; rw [b0]; norm_num [Rigid]
      · rw [b1 k hk]; norm_num [Rigid, Body.blank, Transform.identity]
    case moved => rw [h0, b0]; norm_num [exLying, Body.blank]
    case placed => rw [h0, b0]; simp [Centred, Transform.apply, Body.blank, V2.zero]
    case unbiased => rfl
    case fixed => rw [h1, b1 1 (by decide)]; exact ⟨rfl, rfl⟩
    case rest => rw [h1, b1 1 (by decide)]; exact ⟨rfl, rfl, rfl, rfl⟩
    case left => rw [h1, b1 1 (by decide)]; norm_num [Transform.apply, Body.blank, Transform.identity]
    case right => rw [h1, b1 1 (by decide)]; norm_num [Transform.apply, Body.blank, Transform.identity]
    case wide => norm_num
    case rate => exact Real.rpow_le_one (by norm_num [exLying]) (by norm_num [exLying]) (by norm_num)
    case length => norm_num
    case iterations => norm_num [exLying]
    case elastic => norm_num [exLying]
    case friction => norm_num [exLying]
    case accepts => exact ⟨.inl rfl, ⟨0, by decide, by decide, by decide⟩, ⟨0, by decide, by decide, by decide⟩⟩
    case sensor => exact ⟨rfl, rfl⟩
  case touch => rw [h0, b0]; norm_num
  case slight => rw [h0, b0]; norm_num [exLying]
  case above => rw [h0, b0]; norm_num
  case level => rw [h0, b0]
  case gravity => norm_num [exLying]
  case undamped => exact Real.one_rpow _
  case free => rw [h0, b0]; exact ⟨rfl, rfl, by norm_num [Body.blank, exLying]⟩

/-- The hypotheses of C125: the ball slips for 24 steps, and then rolls with two thirds of its speed. -/
example (shapes : Nat → CShape ℝ) (hs : ∀ i, (shapes i).bb.L ≤ (shapes i).bb.R ∧ (shapes i).bb.B ≤ (shapes i).bb.T) :
    ∃ w, (World.init exPushedBodies shapes).run realMth exLying
        (twoOps false ++ (List.replicate 30 (⟨1/60, [0], [0], fun _ _ => true, fun _ _ => true⟩ : Tick ℝ)).map .step) = some w ∧
      (w.bodies 0).v = ⟨2, 0⟩ ∧ (w.bodies 0).v.x + 1 * (w.bodies 0).w = 0 ∧ (w.bodies 0).p.y = 7/32 := by
  have hlen : (List.replicate 30 (⟨1/60, [0], [0], fun _ _ => true, fun _ _ => true⟩ : Tick ℝ)).length = 30 := List.length_replicate
  have hnext : laidNext exLying exPushedBodies 1 10 (1/60) = Rolled.next 1 0 (1/2) 1 (1/8) (1/60) := by
    unfold laidNext
    norm_num [exLying, exPushedBodies]
  have hq : laidMotion exLying exPushedBodies = ⟨3, 3, 0⟩ := by
    simp [laidMotion, exLying, exPushedBodies, Body.blank]
  have hx : ∀ n ≤ 30, -9 ≤ ((laidNext exLying exPushedBodies 1 10 (1/60))^[n] (laidMotion exLying exPushedBodies)).x ∧
      ((laidNext exLying exPushedBodies 1 10 (1/60))^[n] (laidMotion exLying exPushedBodies)).x ≤ 9 := by
    rw [hnext, hq]
    have early : ∀ n : Nat, n ≤ 24 → ((Rolled.next (1 : ℝ) 0 (1/2) 1 (1/8) (1/60))^[n] ⟨3, 3, 0⟩).x = 3 + n * (3 * (1/60)) - n * (n - 1) / 2 * (1/8 * (1/2 / (1/2 + 1 * 1 ^ 2)) * (1/60)) := by
      intro n hn
      have hn' : (n : ℝ) ≤ 24 := by exact_mod_cast hn
      exact (C125_slides (ρ := 1) (c := 0) (mi := 1/2) (ii := 1) (D := 1/8) (dt := 1/60) (by norm_num) (by norm_num) (by norm_num) (⟨3, 3, 0⟩ : Rolled ℝ) (by
        simp only [Rolled.slip]; linarith)).2.2
    intro n hn
    rcases le_total n 24 with h | h
    · rw [early n h]
      have hn' : (n : ℝ) ≤ 24 := by exact_mod_cast h
      have h0 : (0 : ℝ) ≤ n := Nat.cast_nonneg n
      constructor <;> nlinarith
    · obtain ⟨-, r2, -, r4⟩ := C125_rolls (ρ := 1) (c := 0) (mi := 1/2) (ii := 1) (D := 1/8) (dt := 1/60) (by norm_num) (by norm_num) (by norm_num) (⟨3, 3, 0⟩ : Rolled ℝ) (N := 24) (n := n)
        (by norm_num [Rolled.slip]) h
      rw [r4, r2, early 24 le_rfl]
      have hn' : (n : ℝ) ≤ 30 := by exact_mod_cast hn
      have h0 : (24 : ℝ) ≤ n := by exact_mod_cast h
      norm_num [Rolled.slip]
      constructor <;> linarith
  obtain ⟨w, e, r1, r2, r3⟩ := C125_settles (μ := 1/4) (mi := 1/2) (ii := 1) (c := 0) (s := 3) realMth_lawful exLying_hyps.1 exLying_hyps.2.1 exPushedBodies shapes hs exPushed_laid
    (by norm_num [exLying]) (by norm_num [exLying, exPushedBodies]) (by norm_num [exLying, exPushedBodies]) (by norm_num [exLying]) (by norm_num [exLying, exPushedBodies, Body.blank])
    (List.replicate 30 (⟨1/60, [0], [0], fun _ _ => true, fun _ _ => true⟩ : Tick ℝ)) (by
      intro t ht
      obtain rfl := List.eq_of_mem_replicate ht
      exact ⟨rfl, rfl, rfl, fun _ _ => rfl, fun _ _ => rfl⟩) (by rw [hlen]; norm_num) (by rw [hlen]; exact hx)
  have h0 : (exLying.figs 0).body = 0 := rfl
  rw [h0] at r1 r2 r3
  refine ⟨w, e, r1.trans ?_, r2, r3.trans (by norm_num [exPushedBodies])⟩
  norm_num [exPushedBodies]

end Cm
