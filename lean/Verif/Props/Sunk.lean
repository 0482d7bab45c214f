import Verif.Props.Flight
import Mathlib.Algebra.Order.Archimedean.Basic
/-! # C122: overlaps are taken away at the given rate -/
set_option linter.unusedSectionVars false
set_option linter.unusedSimpArgs false
set_option linter.unusedVariables false

namespace Cm
open Spec
variable {K : Type} [Field K] [LinearOrder K] [IsStrictOrderedRing K]

/-! ## What a step leaves of a body -/

theorem velocity_same (inf : K) (g : V2 K) (d dt : K) {b b' : Body K} (h : SameBut b b') : SameBut (b.updateVelocity inf g d dt) (b'.updateVelocity inf g d dt) := by
  unfold SameBut at h
  have ht : b'.type inf = b.type inf := by rw [h]; rfl
  unfold Body.updateVelocity SameBut
  rw [ht]
  split
  · exact h
  · rw [h]

/-- All but the velocities of a body after the solver is what the free motion makes of it. -/
theorem solve_same (M : Mth K) (inf slop cbias damping : K) (g : V2 K) (dyn : List Nat) (prevDT dt : K) (n : Nat) (s : SolverState K) (k : Nat) :
    SameBut (if k ∈ dyn then (s.bodies k).updateVelocity inf g (M.pow damping dt) dt else s.bodies k) ((s.solve M inf slop cbias damping g dyn prevDT dt n).bodies k) := by
  have h1 : SameBut (s.bodies k) ((s.preStep M inf slop cbias dt).bodies k) :=
    (linkLoop_place (fun (arb : Arbiter K) a b => (a, b, arb.preStep a b dt slop (1 - M.pow cbias dt))) (fun x a b => Nudge.refl a b) s.arbs s.bodies k).trans
      (linkLoop_place (fun jt a b => jt.preStep M inf a b dt) (fun x a b => jointPreNudge M inf dt x a b) s.joints _ k)
  unfold SolverState.solve
  generalize s.preStep M inf slop cbias dt = s1 at h1 ⊢
  have h2 : SameBut (if k ∈ dyn then (s.bodies k).updateVelocity inf g (M.pow damping dt) dt else s.bodies k) ((s1.velocities M inf damping g dyn dt).bodies k) := by
    simp only [SolverState.velocities]
    split
    · exact velocity_same _ _ _ _ h1
    · exact h1
  generalize s1.velocities M inf damping g dyn dt = s2 at h2 ⊢
  have h3 : SameBut (s2.bodies k) ((s2.cached prevDT dt).bodies k) :=
    (linkLoop_place (fun arb a b => let t := arb.applyCachedImpulse a b (if prevDT ≠ 0 then dt / prevDT else 0); (t.1, t.2, arb))
        (fun x a b => arbCachedNudge x _ a b) s2.arbs s2.bodies k).trans
      (linkLoop_place (fun jt a b => let t := jt.applyCached a b (if prevDT ≠ 0 then dt / prevDT else 0); (t.1, t.2, jt)) (fun x a b => jointCachedNudge x _ a b) s2.joints _ k)
  generalize s2.cached prevDT dt = s3 at h3 ⊢
  refine SameBut.trans h2 (SameBut.trans h3 ?_)
  clear h1 h2 h3
  induction n generalizing s3 with
  | zero => rfl
  | succ n ih =>
    rw [Function.iterate_succ_apply]
    refine SameBut.trans ?_ (ih _)
    exact (linkLoop_place (fun arb a b => arb.applyImpulse a b) arbNudge s3.arbs s3.bodies k).trans
      (linkLoop_place (fun jt a b => jt.applyImpulse M a b dt) (fun x a b => jointNudge M dt x a b) s3.joints _ k)

/-- The same for the whole step. -/
theorem step_same (M : Mth K) (sc : Scene K) (inp : Tick K) (w : World K) (h0 : inp.dt ≠ 0) (k : Nat) :
    SameBut (if k ∈ inp.dyn then ((w.bodies k).updatePosition M inp.dt).updateVelocity sc.par.inf sc.par.gravity (M.pow sc.par.damping inp.dt) inp.dt else w.bodies k)
      ((w.step M sc inp).bodies k) := by
  obtain ⟨e, -⟩ := C111_step M sc inp w ⟨w.bodies, [], w.joints⟩ rfl rfl
  rw [e]
  unfold SolverState.step
  rw [if_neg h0]
  have := solve_same M sc.par.inf sc.par.slop sc.par.cbias sc.par.damping sc.par.gravity inp.dyn w.prevDT inp.dt sc.par.iterations
    ({ SolverState.positions M inp.dyn inp.dt ⟨w.bodies, [], w.joints⟩ with arbs := collisions M sc inp w }) k
  simp only [SolverState.positions] at this ⊢
  by_cases hk : k ∈ inp.dyn
  · simp only [if_pos hk] at this ⊢; exact this
  · simp only [if_neg hk] at this ⊢; exact this

/-! ## A ball in a floor -/

namespace Spec
/-- A ball has been put too deep into a level floor: shape 0 is a ball about the centre of gravity of its body, shape 1 a rod on an immovable body which is level and below the
centre of the ball; everything is at rest, and the ball and the rod overlap by at least what is allowed. The elasticities and frictions may be anything that is
not negative. -/
structure InFloor (M : Mth K) (sc : Scene K) (fig : Nat → Figure K) (bodies : Nat → Body K) (dt g ρ r : K) (a b : V2 K) : Prop where
  ball : fig 0 = .ball ρ (bodies (sc.figs 0).body).cog
  rod : fig 1 = .rod a b r
  apart : (sc.figs 0).body ≠ (sc.figs 1).body
  rest : ∀ k, AtRest M (bodies k)
  moved : (bodies (sc.figs 0).body).m ≠ sc.par.inf ∧ (bodies (sc.figs 0).body).idle ≠ sc.par.inf ∧ 0 < (bodies (sc.figs 0).body).mInv ∧ 0 ≤ (bodies (sc.figs 0).body).iInv
  fixed : ∀ k, k ≠ (sc.figs 0).body → (bodies k).mInv = 0 ∧ (bodies k).iInv = 0
  level : ((bodies (sc.figs 1).body).tr.apply b).y = ((bodies (sc.figs 1).body).tr.apply a).y
  left : ((bodies (sc.figs 1).body).tr.apply a).x ≤ (bodies (sc.figs 0).body).p.x
  right : (bodies (sc.figs 0).body).p.x ≤ ((bodies (sc.figs 1).body).tr.apply b).x
  wide : ((bodies (sc.figs 1).body).tr.apply a).x < ((bodies (sc.figs 1).body).tr.apply b).x
  above : 0 < (bodies (sc.figs 0).body).p.y - ((bodies (sc.figs 1).body).tr.apply a).y
  deep : (bodies (sc.figs 0).body).p.y - ((bodies (sc.figs 1).body).tr.apply a).y ≤ ρ + r - sc.par.slop
  slop : 0 < sc.par.slop
  rate : 0 ≤ M.pow sc.par.cbias dt ∧ M.pow sc.par.cbias dt ≤ 1
  gravity : sc.par.gravity = ⟨0, -g⟩ ∧ 0 ≤ g
  length : 0 < dt
  iterations : sc.par.iterations ≠ 0
  friction : 0 ≤ (sc.figs 0).surface.friction * (sc.figs 1).surface.friction
  still : (sc.figs 0).surface.velocity = ⟨0, 0⟩ ∧ (sc.figs 1).surface.velocity = ⟨0, 0⟩
  accepts : Accepts (sc.figs 0).filter (sc.figs 1).filter
  sensor : (sc.figs 0).sensor = false ∧ (sc.figs 1).sensor = false

/-- `b` put at the height `y`. -/
def lifted (M : Mth K) (b : Body K) (y : K) : Body K := { b with p := ⟨b.p.x, y⟩, tr := Body.mkTransform M b.cog ⟨b.p.x, y⟩ b.angle }

/-- The overlap beyond the allowed one of the ball of radius `ρ` and the rod of radius `r`, the line of which is at the height `f`, if the centre of the ball is at the height `y`. -/
def excess (ρ r slop f y : K) : K := ρ + r - slop - (y - f)
end Spec

/-- What holds while the ball is pulled out: it is at the height `y`, and will rise with the speed `β`. -/
structure Sinking (M : Mth K) (sc : Scene K) (bodies : Nat → Body K) (ro : Roster) (dt y β : K) (w : World K) : Prop where
  upright : Upright sc ro w
  filed : Filed w
  unrefused : Unrefused w
  joints : w.joints = []
  barred : ∀ i j, w.barred i j = false
  known : Known w dt 0 1
  others : ∀ k, k ≠ (sc.figs 0).body → w.bodies k = bodies k
  ball : w.bodies (sc.figs 0).body = { lifted M (bodies (sc.figs 0).body) y with vBias := ⟨0, β⟩ }

/-- The laws of an impact leave a ball at rest that lies at rest on something fixed. -/
theorem laws_rest {u jn jt v gd mi ii ρ vx w : K} (hu : 0 ≤ u) (hg : 0 ≤ gd) (hm : 0 < mi) (hi : 0 ≤ ii) (hv : v = -gd + jn * mi) (hvx : vx = -jt * mi) (hw : w = -(ii * ρ * jt))
    (h : NewtonCoulomb u jn jt 0 v (-vx - w * ρ)) : v = 0 ∧ vx = 0 ∧ w = 0 := by
  have hk : 0 < mi + ii * ρ ^ 2 := by have := mul_nonneg hi (sq_nonneg ρ); linarith
  have hs : -vx - w * ρ = jt * (mi + ii * ρ ^ 2) := by rw [hvx, hw]; ring
  have huj : 0 ≤ u * jn := mul_nonneg hu h.push
  have hjt : jt = 0 := by
    rcases lt_trichotomy jt 0 with hj | hj | hj
    · have := h.left (by rw [hs]; exact mul_neg_of_neg_of_pos hj hk)
      linarith
    · exact hj
    · have := h.right (by rw [hs]; exact mul_pos hj hk)
      linarith
  refine ⟨?_, by rw [hvx, hjt]; ring, by rw [hw, hjt]; ring⟩
  rcases eq_or_lt_of_le h.push with hj | hj
  · have := h.part hj.symm
    rw [hv, ← hj] at this ⊢
    linarith
  · exact h.rebound hj

theorem lifted_rest {M : Mth K} {b : Body K} (h : AtRest M b) : lifted M b b.p.y = b := by
  have := h.tr
  cases b
  simp only [lifted] at this ⊢
  rw [← this]

theorem falls_type {b : Body K} {inf : K} (h : b.m ≠ inf ∧ b.idle ≠ inf) : b.type inf ≠ .kinematic := by
  unfold Body.type; rw [if_neg h.2, if_neg h.1]; decide

/-- One step of a ball that is pulled out of the floor. -/
theorem sinking_step {M : Mth K} (hM : M.Lawful) {sc : Scene K} {fig : Nat → Figure K} (hm : Made M sc fig) (hper : 1 ≤ sc.persistence) {bodies : Nat → Body K}
    {dt g ρ r : K} {a b : V2 K} (h : InFloor M sc fig bodies dt g ρ r a b) {ro : Roster} (hro : ∀ i, ro i = if i = 1 then some false else if i = 0 then some true else none)
    {y β : K} {w : World K} (hw : Sinking M sc bodies ro dt y β w) (h1 : 0 < y + β * dt - ((bodies (sc.figs 1).body).tr.apply a).y)
    (h2 : 0 ≤ excess ρ r sc.par.slop ((bodies (sc.figs 1).body).tr.apply a).y (y + β * dt)) {t : Tick K} (ht : t.dt = dt ∧ t.dyn = [(sc.figs 0).body] ∧ t.order = [0] ∧ Accepting t) :
    WOk sc ro (.step t) ∧ Sinking M sc bodies ro dt (y + β * dt)
      ((1 - M.pow sc.par.cbias dt) * excess ρ r sc.par.slop ((bodies (sc.figs 1).body).tr.apply a).y (y + β * dt) / dt) (w.step M sc t) := by
  classical
  obtain ⟨t1, t2, t3, t4⟩ := ht
  have h0 : t.dt ≠ 0 := by rw [t1]; exact h.length.ne'
  have hro1 : ∀ i, ro i ≠ none → i = 0 ∨ i = 1 := by
    intro i hi; rw [hro] at hi
    by_cases h1 : i = 1
    · exact .inr h1
    · by_cases h0 : i = 0
      · exact .inl h0
      · rw [if_neg h1, if_neg h0] at hi; exact absurd rfl hi
  have heasy : AllEasy sc fig ro := by
    intro i j hi hj hd hbo
    rcases hro1 i hi with rfl | rfl <;> rcases hro1 j hj with rfl | rfl
    · exact absurd rfl hbo
    · rw [h.ball, h.rod]; exact trivial
    · rw [h.ball, h.rod]; exact trivial
    · exact absurd rfl hbo
  have t5 : WOk sc ro (.step t) := by
    refine ⟨by rw [t3]; simp, fun i => ?_, fun j hj => ?_⟩
    · rw [t3, hro]
      by_cases h1 : i = 1
      · subst h1; simp
      · by_cases h0 : i = 0
        · subst h0; simp
        · simp [h1, h0]
    · rw [t2, List.mem_singleton]
      rcases hro1 j (by rw [hj]; simp) with rfl | rfl
      · rw [hro] at hj; simp at hj
      · exact h.apart.symm
  refine ⟨t5, ?_⟩
  obtain ⟨r1, r2, r3, r4, r5, r6, r7⟩ := h.rest (sc.figs 0).body
  generalize hy : y + β * dt = y' at *
  generalize hf : ((bodies (sc.figs 1).body).tr.apply a).y = f at *
  -- where the bodies are when collisions are looked for
  have hupd : (w.bodies (sc.figs 0).body).updatePosition M dt = lifted M (bodies (sc.figs 0).body) y' := by
    rw [hw.ball, ← hy]
    simp only [lifted, Body.updatePosition, Body.setTransform]
    rw [r1, r2, r4]
    simp only [V2.add, V2.scale, V2.zero, zero_add, add_zero, zero_mul]
    cases hb : bodies (sc.figs 0).body
    rw [hb] at r1 r2 r3 r4
    simp only at r1 r2 r3 r4
    subst r1 r2 r3 r4
    rfl
  have hbeg : ∀ k, (w.begun M sc t).bodies k = if k = (sc.figs 0).body then lifted M (bodies (sc.figs 0).body) y' else bodies k := by
    intro k
    simp only [World.begun, SolverState.positions, t1, t2, List.mem_singleton]
    split
    · rename_i e; rw [e, hupd]
    · rename_i e; exact hw.others k e
  have hbeg0 : (w.begun M sc t).bodies (sc.figs 0).body = lifted M (bodies (sc.figs 0).body) y' := by rw [hbeg, if_pos rfl]
  have hbeg1 : (w.begun M sc t).bodies (sc.figs 1).body = bodies (sc.figs 1).body := by rw [hbeg, if_neg h.apart.symm]
  have hcen : (lifted M (bodies (sc.figs 0).body) y').tr.apply (bodies (sc.figs 0).body).cog = ⟨(bodies (sc.figs 0).body).p.x, y'⟩ := by
    simp only [lifted, Body.mkTransform, Transform.transpose, Transform.apply]
    apply V2.ext <;> dsimp only <;> ring
  -- the one collision
  have hon : y' - f < ρ + r := by unfold excess at h2; linarith [h.slop]
  obtain ⟨fd, fd1, fd2, fd3⟩ := step_exact hM hm hw.upright t t5 h0 (finds_detects hM hm hw.upright t t5 (.inl heasy))
  obtain ⟨-, -, g3, g4, g5⟩ := step_frame M sc t w h0
  obtain ⟨hbu, hcur⟩ := begun_upright hM hm hw.upright t t5
  have hcoll : Colliding sc fig ro (w.step M sc t) 0 1 := by
    refine ⟨by decide, by rw [hro]; simp, by rw [hro]; simp, .inl (by rw [hro]; simp), h.apart, h.accepts, by rw [g3]; exact hw.barred _ _, ?_⟩
    rw [(g5 _).2.2.2, (g5 _).2.2.2, hbeg0, hbeg1, h.ball, h.rod]
    have hd : 0 < ((bodies (sc.figs 1).body).tr.apply b).x - ((bodies (sc.figs 1).body).tr.apply a).x := sub_pos.2 h.wide
    refine ⟨_, At a b (((bodies (sc.figs 0).body).p.x - ((bodies (sc.figs 1).body).tr.apply a).x) /
      (((bodies (sc.figs 1).body).tr.apply b).x - ((bodies (sc.figs 1).body).tr.apply a).x)), rfl, ⟨_, div_nonneg (by linarith [h.left]) hd.le, (div_le_one hd).2 (by linarith [h.right]), rfl⟩, ?_⟩
    have hq : (bodies (sc.figs 1).body).tr.apply (At a b (((bodies (sc.figs 0).body).p.x - ((bodies (sc.figs 1).body).tr.apply a).x) /
        (((bodies (sc.figs 1).body).tr.apply b).x - ((bodies (sc.figs 1).body).tr.apply a).x))) = ⟨(bodies (sc.figs 0).body).p.x, f⟩ := by
      rw [apply_at]
      have := div_mul_cancel₀ ((bodies (sc.figs 0).body).p.x - ((bodies (sc.figs 1).body).tr.apply a).x) hd.ne'
      apply V2.ext
      · show _ + _ * _ = _
        rw [this]; ring
      · show _ + _ * (_ - _) = _
        rw [h.level, ← hf]; ring
    have hlt : dist2 ((lifted M (bodies (sc.figs 0).body) y').tr.apply (bodies (sc.figs 0).body).cog) ⟨(bodies (sc.figs 0).body).p.x, f⟩ < (ρ + r) * (ρ + r) := by
      rw [hcen]
      have := mul_self_lt_mul_self h1.le hon
      simp only [dist2]
      linarith [this, sq (y' - f), sub_self (bodies (sc.figs 0).body).p.x, sq_eq_zero_iff.2 (sub_self (bodies (sc.figs 0).body).p.x)]
    rw [hq]
    exact ⟨hlt.le, fun _ => hlt⟩
  obtain ⟨p, rfl, hp⟩ := only_pair fd1 ((fd2 0 1).2 hcoll) (fun p hp => by
    obtain ⟨c1, c2, c3, -⟩ := (fd2 p.1 p.2).1 ⟨p, hp, .inl rfl⟩
    obtain ⟨i, j⟩ := p
    rcases hro1 i c2 with rfl | rfl <;> rcases hro1 j c3 with rfl | rfl
    · exact absurd rfl c1
    · exact .inl rfl
    · exact .inr rfl
    · exact absurd rfl c1)
  have hb1 : w.bodies (sc.figs 1).body = bodies (sc.figs 1).body := hw.others _ h.apart.symm
  have hwant : Wanted sc t w p := by
    rw [wanted_iff t4 hw.unrefused]
    have hmass : ¬ ((w.bodies (sc.figs 0).body).m = sc.par.inf ∧ (w.bodies (sc.figs 1).body).m = sc.par.inf) := fun hh => h.moved.1 (by have := hh.1; rw [hw.ball] at this; exact this)
    rcases hp with rfl | rfl
    · exact ⟨h.sensor.1, h.sensor.2, hmass⟩
    · exact ⟨h.sensor.2, h.sensor.1, fun hh => hmass ⟨hh.2, hh.1⟩⟩
  have hact : (w.step M sc t).active = [p] := by rw [fd3]; simp [hwant]
  have hr0 : ro 0 ≠ none := by rw [hro]; simp
  have hr1 : ro 1 ≠ none := by rw [hro]; simp
  have hp01 : p = (0, 1) := by
    rcases hp with hp | hp
    · exact hp
    · refine absurd ?_ (ball_first hM hm hper hw.upright hw.filed t5 h0 hr0 hr1 h.ball h.rod)
      rw [hact, hp]; exact List.mem_cons_self
  subst hp01
  have hlev : ∀ sw id, circleToSegment M ⟨(bodies (sc.figs 0).body).cog, (lifted M (bodies (sc.figs 0).body) y').tr.apply (bodies (sc.figs 0).body).cog, ρ⟩
      ((Segment.new M a b r).cache (bodies (sc.figs 1).body).tr).1 ⟨(bodies (sc.figs 1).body).tr.a, (bodies (sc.figs 1).body).tr.b⟩ ⟨sw, id, V2.zero, []⟩ =
      ⟨sw, id, ⟨0, -1⟩, [⟨⟨(bodies (sc.figs 0).body).p.x, y' - ρ⟩, ⟨(bodies (sc.figs 0).body).p.x, f + r⟩, 0⟩]⟩ := by
    intro sw id
    rw [hcen, ← hf]
    exact on_level hM _ _ _ ρ _ _ sw id h.level h.wide h.left h.right rfl rfl (by rw [← hf] at h1; exact h1) (by rw [← hf] at hon; exact hon)
  have m0 : (w.bodies (sc.figs 0).body).mInv = (bodies (sc.figs 0).body).mInv := by rw [hw.ball]; rfl
  have i0 : (w.bodies (sc.figs 0).body).iInv = (bodies (sc.figs 0).body).iInv := by rw [hw.ball]; rfl
  obtain ⟨m1, i1⟩ := h.fixed _ h.apart.symm
  obtain ⟨c, -, -, c1, c2, law, exch, drawn⟩ := impact hM hm hper h.iterations hw.upright hw.filed t5 h0 (i := 0) (j := 1) (by rw [hact]; exact List.mem_cons_self)
    ⟨fun x hx hne => absurd (by rw [hact] at hx; exact List.mem_singleton.1 hx) hne, fun l hl => by rw [hw.joints] at hl; cases hl⟩
    (by rw [hb1]; exact ⟨by rw [m0]; exact h.moved.2.2.1.le, m1.ge, by rw [i0]; exact h.moved.2.2.2, i1.ge, by rw [m0, m1, add_zero]; exact h.moved.2.2.1⟩)
    h.friction (n := ⟨0, -1⟩) (r1 := ⟨0, -ρ⟩) (r2 := ⟨(bodies (sc.figs 0).body).p.x - (bodies (sc.figs 1).body).p.x, f + r - (bodies (sc.figs 1).body).p.y⟩)
    (fun p info hhit hpair => by
      obtain ⟨-, nb1, id, col⟩ := hit_collide hbu.proper hhit
      have hp' : p = (0, 1) ∨ p = (1, 0) := by
        unfold Info.pair at hpair
        split at hpair
        · exact .inr (Prod.ext (congrArg Prod.snd hpair) (congrArg Prod.fst hpair))
        · exact .inl hpair
      rw [hbeg0, hbeg1]
      rcases hp' with rfl | rfl
      · dsimp only at col
        rw [hcur _ hr0, hcur _ hr1, (hm _).2, (hm _).2, h.ball, h.rod, ball_rod, hbeg0, hbeg1, hlev] at col
        obtain rfl := Option.some.inj col
        exact ⟨rfl, _, rfl, by simp [lifted, V2.sub], rfl⟩
      · dsimp only at col
        rw [hcur _ hr0, hcur _ hr1, (hm _).2, (hm _).2, h.ball, h.rod, rod_ball, hbeg0, hbeg1, hlev] at col
        obtain rfl := Option.some.inj col
        exact ⟨rfl, _, rfl, by simp [lifted, V2.sub], rfl⟩)
    (by norm_num) (by rw [hb1]; exact ⟨by simp, by rw [i1, zero_mul]⟩)
  have hstill : ∀ k, k ≠ (sc.figs 0).body → (w.step M sc t).bodies k = bodies k := by
    intro k hk
    rw [← hw.others k hk]
    refine C115_still M sc k [.step t] w _ (by rw [hw.others k hk]; exact h.fixed k hk) rfl (fun inp hi => ?_) (fun b hb => by simp at hb)
    simp only [List.mem_singleton, WorldOp.step.injEq] at hi
    rw [hi, t2, List.mem_singleton]; exact hk
  have hs := step_same M sc t w h0 (sc.figs 0).body
  rw [if_pos (by rw [t2]; exact List.mem_cons_self), t1, hupd] at hs
  have hs1 := hstill _ h.apart.symm
  obtain ⟨r1', r2', r3', r4', -⟩ := h.rest (sc.figs 1).body
  have htype : (w.bodies (sc.figs 0).body).type sc.par.inf ≠ .kinematic := by
    refine falls_type ?_
    rw [hw.ball]; exact ⟨h.moved.1, h.moved.2.1⟩
  have hcoast : (coast M sc.par t.dyn t.dt (sc.figs 0).body (w.bodies (sc.figs 0).body)).v = ⟨0, -g * dt⟩ ∧
      (coast M sc.par t.dyn t.dt (sc.figs 0).body (w.bodies (sc.figs 0).body)).w = 0 ∧
      (coast M sc.par t.dyn t.dt (sc.figs 0).body (w.bodies (sc.figs 0).body)).mInv = (bodies (sc.figs 0).body).mInv ∧
      (coast M sc.par t.dyn t.dt (sc.figs 0).body (w.bodies (sc.figs 0).body)).iInv = (bodies (sc.figs 0).body).iInv := by
    unfold coast
    rw [if_pos ⟨by rw [t2]; exact List.mem_cons_self, htype⟩, hw.ball]
    simp only [lifted, r1, r2, r5, r6, h.gravity.1, t1]
    refine ⟨by apply V2.ext <;> dsimp only <;> ring, by ring, trivial, trivial⟩
  obtain ⟨⟨x1, x2⟩, -⟩ := exch (by rw [t1]; exact hw.known)
  rw [hcoast.1, hcoast.2.2.1] at x1
  rw [hcoast.2.1, hcoast.2.2.2, c1] at x2
  unfold Lawful at law
  rw [hs1, hb1, hw.ball, c1] at law
  have hn : (w.step M sc t).bodies (sc.figs 0).body = { lifted M (bodies (sc.figs 0).body) y' with
      v := ((w.step M sc t).bodies (sc.figs 0).body).v, w := ((w.step M sc t).bodies (sc.figs 0).body).w
      vBias := ((w.step M sc t).bodies (sc.figs 0).body).vBias, wBias := ((w.step M sc t).bodies (sc.figs 0).body).wBias } := by
    refine Eq.trans (show _ = _ from hs) ?_
    have : (lifted M (bodies (sc.figs 0).body) y').type sc.par.inf ≠ .kinematic := falls_type ⟨h.moved.1, h.moved.2.1⟩
    unfold Body.updateVelocity
    rw [if_neg this]
    dsimp only [lifted]
    rw [r5, r6]
    rfl
  obtain ⟨⟨d1, d2⟩, -⟩ := drawn (by
    intro k hk hkd
    rw [t2, List.mem_singleton] at hkd
    rcases hk with hk | hk
    · exact absurd hk hkd
    · rw [hk, hb1]; exact ⟨r3', r4'⟩) (by rw [t1]; exact h.length) (by rw [t1]; exact h.rate.2)
  have hmi : ((w.step M sc t).bodies (sc.figs 0).body).mInv = (bodies (sc.figs 0).body).mInv := by rw [hn]; rfl
  have hpp : ((w.step M sc t).bodies (sc.figs 0).body).p = ⟨(bodies (sc.figs 0).body).p.x, y'⟩ := by rw [hn]; rfl
  have hpast : past ⟨0, -1⟩ ((w.step M sc t).bodies (sc.figs 0).body) ((w.step M sc t).bodies (sc.figs 1).body) c = ρ + r - (y' - f) := by
    unfold past; rw [c1, c2, hpp, hs1]; dsimp only; ring
  rw [hpast, hmi, hs1, m1, add_zero, t1] at d1
  have hmax : max 0 (ρ + r - (y' - f) - sc.par.slop) = excess ρ r sc.par.slop f y' := by
    rw [max_eq_right]
    · unfold excess; ring
    · unfold excess at h2; linarith
  rw [hmax] at d1
  have hd1 : ((w.step M sc t).bodies (sc.figs 0).body).vBias = ⟨0, (1 - M.pow sc.par.cbias dt) * excess ρ r sc.par.slop f y' / dt⟩ := by
    rw [d1]
    have := h.moved.2.2.1.ne'
    apply V2.ext
    · simp
    · dsimp only
      generalize (1 - M.pow sc.par.cbias dt) * excess ρ r sc.par.slop f y' / dt = z
      field_simp
  obtain ⟨v1, v2, v3⟩ := laws_rest (v := ((w.step M sc t).bodies (sc.figs 0).body).v.y) (vx := ((w.step M sc t).bodies (sc.figs 0).body).v.x)
    (w := ((w.step M sc t).bodies (sc.figs 0).body).w) (gd := g * dt) (jn := c.jnAcc) (jt := c.jtAcc) (ρ := ρ) h.friction (mul_nonneg h.gravity.2 h.length.le) h.moved.2.2.1 h.moved.2.2.2
    (by rw [x1]; dsimp only; ring) (by rw [x1]; dsimp only; ring) (by rw [x2]; dsimp only; ring) (by
      have e1 : speed { lifted M (bodies (sc.figs 0).body) y with vBias := ⟨0, β⟩ } (bodies (sc.figs 1).body) ⟨0, -ρ⟩ c.r2 ⟨0, -1⟩ = 0 := by
        simp only [speed, lifted, r1, r2, r1', r2']; ring
      rw [e1] at law
      have e2 : -((sc.figs 0).surface.elasticity * (sc.figs 1).surface.elasticity * 0) = (0 : K) := by ring
      rw [e2] at law
      have e3 : speed ((w.step M sc t).bodies (sc.figs 0).body) (bodies (sc.figs 1).body) ⟨0, -ρ⟩ c.r2 ⟨0, -1⟩ = ((w.step M sc t).bodies (sc.figs 0).body).v.y := by
        simp only [speed, r1', r2']; ring
      rw [e3, h.still.1, h.still.2] at law
      convert law using 1
      simp only [speed, r1', r2', V2.perp]; ring)
  have hc := calls_apart hM hm hw.upright t t5
  obtain ⟨w1, ew1, hu'⟩ := run1_upright hM hm hw.upright (.step t) t5
  obtain rfl := Option.some.inj ew1
  refine ⟨hu', step_filed M sc hper t w h0 hw.filed.one hc, step_unrefused M (sc := sc) t4 h0 hw.filed.one hw.unrefused, ?_, ?_, ?_, hstill, ?_⟩
  · obtain ⟨-, e, -⟩ := C111_step M sc t w ⟨w.bodies, [], w.joints⟩ rfl rfl
    have e' := step_ends M sc.par w.prevDT ⟨t.dt, t.dyn, collisions M sc t w⟩ ⟨w.bodies, [], w.joints⟩
    rw [← e, hw.joints] at e'
    exact List.map_eq_nil_iff.1 e'
  · intro i j; rw [g3]; exact hw.barred i j
  · right
    refine ⟨by rw [hact]; exact List.mem_cons_self, ?_⟩
    unfold World.step
    rw [if_neg h0]; exact t1
  · rw [hn, hd1, d2, v3, show ((w.step M sc t).bodies (sc.figs 0).body).v = ⟨0, 0⟩ from V2.ext v2 v1]
    cases hb : bodies (sc.figs 0).body
    rw [hb] at r1 r2 r3 r4
    simp only at r1 r2 r3 r4
    subst r1 r2 r3 r4
    rfl

theorem rise {κ dt e f y ρ r slop : K} (hdt : dt ≠ 0) (he : excess ρ r slop f y = e) : excess ρ r slop f (y + (1 - κ) * excess ρ r slop f y / dt * dt) = κ * e := by
  rw [div_mul_cancel₀ _ hdt, ← he]; unfold excess; ring

/-- **C122.** A ball that has been put too deep into a level floor is pulled out without any speed: the first step finds the overlap, and each later one leaves the part `cbias ^ dt` of what
is beyond the allowed overlap; nothing else changes. -/
theorem C122_floor {M : Mth K} (hM : M.Lawful) {sc : Scene K} {fig : Nat → Figure K} (hm : Made M sc fig) (hper : 1 ≤ sc.persistence) (bodies : Nat → Body K)
    (shapes : Nat → CShape K) (hs : ∀ i, (shapes i).bb.L ≤ (shapes i).bb.R ∧ (shapes i).bb.B ≤ (shapes i).bb.T) {dt g ρ r : K} {a b : V2 K}
    (h : InFloor M sc fig bodies dt g ρ r a b) (ticks : List (Tick K)) (ht : ∀ t ∈ ticks, t.dt = dt ∧ t.dyn = [(sc.figs 0).body] ∧ t.order = [0] ∧ Accepting t) :
    ∃ w, (World.init bodies shapes).run M sc ([.addDyn 0, .addStat 1] ++ ticks.map .step) = some w ∧ (∀ k, k ≠ (sc.figs 0).body → w.bodies k = bodies k) ∧
      ∃ y β, w.bodies (sc.figs 0).body = { lifted M (bodies (sc.figs 0).body) y with vBias := ⟨0, β⟩ } ∧
        excess ρ r sc.par.slop ((bodies (sc.figs 1).body).tr.apply a).y y =
          M.pow sc.par.cbias dt ^ (ticks.length - 1) * excess ρ r sc.par.slop ((bodies (sc.figs 1).body).tr.apply a).y (bodies (sc.figs 0).body).p.y := by
  classical
  generalize hf : ((bodies (sc.figs 1).body).tr.apply a).y = f
  generalize hκ : M.pow sc.par.cbias dt = κ
  generalize hE : excess ρ r sc.par.slop f (bodies (sc.figs 0).body).p.y = E
  have hro : ∀ i, rosterAfter (fun _ => none) ([.addDyn 0, .addStat 1] : List (WorldOp K)) i = if i = 1 then some false else if i = 0 then some true else none := by
    intro i; simp only [rosterAfter, List.foldl, rosterStep, Roster.set]
  generalize hro' : rosterAfter (fun _ => none) ([.addDyn 0, .addStat 1] : List (WorldOp K)) = ro at hro
  have hl : WLegal sc (fun _ => none) ([.addDyn 0, .addStat 1] : List (WorldOp K)) := by
    refine ⟨rfl, ?_, trivial⟩
    simp [WOk, rosterStep, Roster.set]
  obtain ⟨w, e, hu, hfi⟩ := run_filed hM hm hper _ _ _ (init_upright sc bodies shapes (fun k => (rest_rigid hM (h.rest k)).1) hs)
    ⟨List.Pairwise.nil, List.Pairwise.nil, (fun p hp => by cases hp)⟩ hl
  rw [hro'] at hu
  obtain ⟨w1, w2, w3, w4⟩ := put_two M sc bodies shapes e
  have hrest := h.rest (sc.figs 0).body
  have s0 : Sinking M sc bodies ro dt (bodies (sc.figs 0).body).p.y 0 w := by
    refine ⟨hu, hfi, (by intro x hx; rw [w2] at hx; cases hx), w3, w4, .inl (by intro o ho; rw [w2] at ho; cases ho), fun k _ => by rw [w1], ?_⟩
    rw [lifted_rest hrest, w1]
    have := hrest.vBias
    cases hb : bodies (sc.figs 0).body
    rw [hb] at this
    simp only at this
    rw [this]
  rw [run_append, e]
  show ∃ w', w.run M sc (ticks.map .step) = some w' ∧ _
  have hE0 : 0 ≤ E := by rw [← hE]; have := h.deep; rw [hf] at this; unfold excess; linarith
  have hκ0 : 0 ≤ κ ∧ κ ≤ 1 := by rw [← hκ]; exact h.rate
  have hdt := h.length.ne'
  have habove := h.above
  rw [hf] at habove
  -- from the second step on
  have more : ∀ (ticks : List (Tick K)) (n : Nat) (y : K) (w : World K), (∀ t ∈ ticks, t.dt = dt ∧ t.dyn = [(sc.figs 0).body] ∧ t.order = [0] ∧ Accepting t) →
      excess ρ r sc.par.slop f y = κ ^ n * E → Sinking M sc bodies ro dt y ((1 - κ) * excess ρ r sc.par.slop f y / dt) w →
      ∃ w', w.run M sc (ticks.map .step) = some w' ∧ ∃ y β, Sinking M sc bodies ro dt y β w' ∧ excess ρ r sc.par.slop f y = κ ^ (n + ticks.length) * E := by
    intro ticks
    induction ticks with
    | nil => intro n y w _ hy hw; exact ⟨w, rfl, y, _, hw, hy⟩
    | cons t ticks ih =>
      intro n y w ht hy hw
      have hnext := rise (κ := κ) hdt hy
      have hpow : 0 ≤ κ ^ n * E := mul_nonneg (pow_nonneg hκ0.1 n) hE0
      have hle : κ ^ n * E ≤ E := mul_le_of_le_one_left hE0 (pow_le_one₀ hκ0.1 hκ0.2)
      have hle' : κ * (κ ^ n * E) ≤ E := (mul_le_of_le_one_left hpow hκ0.2).trans hle
      obtain ⟨-, st⟩ := sinking_step hM hm hper h hro hw (t := t) (by
          rw [hf]; have hE' := hE; unfold excess at hnext hE' ⊢; linarith) (by rw [hf, hnext]; exact mul_nonneg hκ0.1 hpow) (ht t List.mem_cons_self)
      rw [hf, hκ] at st
      obtain ⟨w', e', y', β', k1, k2⟩ := ih (n + 1) _ (w.step M sc t) (fun x hx => ht x (List.mem_cons_of_mem _ hx)) (by rw [hnext, pow_succ]; ring) st
      refine ⟨w', by rw [List.map_cons]; exact e', y', β', k1, ?_⟩
      rw [k2, List.length_cons]
      congr 2; omega
  cases ticks with
  | nil => exact ⟨w, rfl, fun k _ => by rw [w1], _, _, s0.ball, by rw [hE]; simp⟩
  | cons t ticks =>
    obtain ⟨-, st⟩ := sinking_step hM hm hper h hro s0 (t := t) (by rw [hf]; linarith) (by rw [hf, zero_mul, add_zero, hE]; exact hE0) (ht t List.mem_cons_self)
    rw [zero_mul, add_zero, hf, hκ] at st
    obtain ⟨w', e', y', β', k1, k2⟩ := more ticks 0 _ _ (fun x hx => ht x (List.mem_cons_of_mem _ hx)) (by rw [hE]; simp) st
    refine ⟨w', by rw [List.map_cons]; exact e', k1.others, y', β', k1.ball, ?_⟩
    rw [k2, List.length_cons]
    congr 2; omega

/-- **C122.** So the ball comes as close to the allowed overlap as one likes, and never less deep than that. -/
theorem C122_converges [Archimedean K] {M : Mth K} (hM : M.Lawful) {sc : Scene K} {fig : Nat → Figure K} (hm : Made M sc fig) (hper : 1 ≤ sc.persistence) (bodies : Nat → Body K)
    (shapes : Nat → CShape K) (hs : ∀ i, (shapes i).bb.L ≤ (shapes i).bb.R ∧ (shapes i).bb.B ≤ (shapes i).bb.T) {dt g ρ r : K} {a b : V2 K}
    (h : InFloor M sc fig bodies dt g ρ r a b) (hκ : M.pow sc.par.cbias dt < 1) {ε : K} (hε : 0 < ε) :
    ∃ N, ∀ ticks : List (Tick K), N ≤ ticks.length → (∀ t ∈ ticks, t.dt = dt ∧ t.dyn = [(sc.figs 0).body] ∧ t.order = [0] ∧ Accepting t) →
      ∃ w, (World.init bodies shapes).run M sc ([.addDyn 0, .addStat 1] ++ ticks.map .step) = some w ∧
        (w.bodies (sc.figs 0).body).v = ⟨0, 0⟩ ∧ (w.bodies (sc.figs 0).body).p.x = (bodies (sc.figs 0).body).p.x ∧
        let depth := ρ + r - ((w.bodies (sc.figs 0).body).p.y - ((bodies (sc.figs 1).body).tr.apply a).y)
        sc.par.slop ≤ depth ∧ depth < sc.par.slop + ε := by
  generalize hE : excess ρ r sc.par.slop ((bodies (sc.figs 1).body).tr.apply a).y (bodies (sc.figs 0).body).p.y = E
  have hE0 : 0 ≤ E := by rw [← hE]; have := h.deep; unfold excess; linarith
  obtain ⟨n, hn⟩ := exists_pow_lt_of_lt_one (show 0 < ε / (E + 1) from div_pos hε (by linarith)) hκ
  refine ⟨n + 1, fun ticks hlen ht => ?_⟩
  obtain ⟨w, e, -, y, β, hb, hx⟩ := C122_floor hM hm hper bodies shapes hs h ticks ht
  rw [hE] at hx
  have hpow : M.pow sc.par.cbias dt ^ (ticks.length - 1) < ε / (E + 1) := lt_of_le_of_lt (pow_le_pow_of_le_one h.rate.1 h.rate.2 (by omega)) hn
  have h1 : 0 ≤ M.pow sc.par.cbias dt ^ (ticks.length - 1) * E := mul_nonneg (pow_nonneg h.rate.1 _) hE0
  have h2 : M.pow sc.par.cbias dt ^ (ticks.length - 1) * E < ε := by
    rw [lt_div_iff₀ (by linarith)] at hpow
    nlinarith [pow_nonneg h.rate.1 (ticks.length - 1)]
  refine ⟨w, e, by rw [hb]; exact (h.rest _).v, by rw [hb]; rfl, ?_⟩
  rw [hb]
  unfold excess at hx
  show _ ≤ ρ + r - (y - _) ∧ ρ + r - (y - _) < _
  constructor <;> linarith

/-! ## Any impact -/

/-- **C122.** After any step in which two bodies are in a collision of which C120 tells, the next step takes the points of contact apart along the normal by what the velocities do, and by the
part `1 - cbias ^ dt` of the overlap beyond the allowed one. -/
theorem C122_gap {M : Mth K} {sc : Scene K} {inp inp' : Tick K} {w : World K} {i j : Nat} {n r1 r2 : V2 K} (hn : n.x ^ 2 + n.y ^ 2 = 1)
    (h : Impact M sc inp w (w.step M sc inp) i j n r1 r2) (hm : 0 < ((w.step M sc inp).bodies (sc.figs i).body).mInv + ((w.step M sc inp).bodies (sc.figs j).body).mInv)
    (hub : Unbiased inp.dyn (sc.figs i).body (sc.figs j).body w.bodies) (hdt : 0 < inp.dt) (hc : M.pow sc.par.cbias inp.dt ≤ 1) (hdt' : inp'.dt = inp.dt)
    (hdyn : ∀ k, k = (sc.figs i).body ∨ k = (sc.figs j).body → k ∈ inp'.dyn ∨ (((w.step M sc inp).bodies k).v = ⟨0, 0⟩ ∧ ((w.step M sc inp).bodies k).mInv = 0)) :
    let w' := w.step M sc inp
    let w'' := w'.step M sc inp'
    let gap := fun u : World K => ((u.bodies (sc.figs j).body).p.x - (u.bodies (sc.figs i).body).p.x) * n.x + ((u.bodies (sc.figs j).body).p.y - (u.bodies (sc.figs i).body).p.y) * n.y
    ∃ c : Contact K, c.r1 = r1 ∧ c.r2 = r2 ∧
      gap w'' = gap w' + inp.dt * (((w'.bodies (sc.figs j).body).v.x - (w'.bodies (sc.figs i).body).v.x) * n.x + ((w'.bodies (sc.figs j).body).v.y - (w'.bodies (sc.figs i).body).v.y) * n.y) +
        (1 - M.pow sc.par.cbias inp.dt) * max 0 (past n (w'.bodies (sc.figs i).body) (w'.bodies (sc.figs j).body) c - sc.par.slop) := by
  intro w' w'' gap
  obtain ⟨c, -, -, c1, c2, -, -, hd⟩ := h
  refine ⟨c, c1, c2, ?_⟩
  obtain ⟨⟨d1, -⟩, d2, -⟩ := hd hub hdt hc
  have h0 : inp'.dt ≠ 0 := by rw [hdt']; exact hdt.ne'
  have hp : ∀ k, k = (sc.figs i).body ∨ k = (sc.figs j).body → ((w'.bodies k).mInv = 0 → (w'.bodies k).vBias = ⟨0, 0⟩) →
      (w''.bodies k).p = ⟨(w'.bodies k).p.x + ((w'.bodies k).v.x + (w'.bodies k).vBias.x) * inp.dt, (w'.bodies k).p.y + ((w'.bodies k).v.y + (w'.bodies k).vBias.y) * inp.dt⟩ := by
    intro k hk hb
    have hpl := (((step_frame M sc inp' w' h0).2.2.2.2) k).2.1
    rw [hpl]
    simp only [World.begun, SolverState.positions]
    by_cases hd : k ∈ inp'.dyn
    · rw [if_pos hd]
      simp only [Body.updatePosition, Body.setTransform, V2.add, V2.scale, hdt']
    · rw [if_neg hd]
      obtain ⟨v0, m0⟩ := (hdyn k hk).resolve_left hd
      rw [show (w'.bodies k).v = _ from v0, hb m0]
      simp
  have e1 := hp _ (.inl rfl) (fun m => by rw [d1, m]; simp)
  have e2 := hp _ (.inr rfl) (fun m => by rw [d2, m]; simp)
  simp only [gap]
  rw [e1, e2, d1, d2]
  dsimp only
  generalize hz : (1 - M.pow sc.par.cbias inp.dt) * max 0 (past n (w'.bodies (sc.figs i).body) (w'.bodies (sc.figs j).body) c - sc.par.slop) = z at *
  have hk : z / inp.dt / ((w'.bodies (sc.figs i).body).mInv + (w'.bodies (sc.figs j).body).mInv) * ((w'.bodies (sc.figs i).body).mInv + (w'.bodies (sc.figs j).body).mInv) * inp.dt = z := by
    rw [div_mul_cancel₀ _ hm.ne', div_mul_cancel₀ _ hdt.ne']
  have hz' : (1 - M.pow sc.par.cbias inp.dt) * max 0 (past n ((World.step M sc inp w).bodies (sc.figs i).body) ((World.step M sc inp w).bodies (sc.figs j).body) c - sc.par.slop) = z := hz
  simp only [show World.step M sc inp w = w' from rfl] at hz' ⊢
  generalize z / inp.dt / ((w'.bodies (sc.figs i).body).mInv + (w'.bodies (sc.figs j).body).mInv) = x at hk ⊢
  linear_combination hk + (x * ((w'.bodies (sc.figs i).body).mInv + (w'.bodies (sc.figs j).body).mInv) * inp.dt) * hn

theorem step_masses (M : Mth K) (sc : Scene K) (inp : Tick K) (w : World K) (h0 : inp.dt ≠ 0) (k : Nat) : ((w.step M sc inp).bodies k).mInv = (w.bodies k).mInv := by
  have h := congrArg Body.mInv (step_same M sc inp w h0 k)
  refine h.trans ?_
  dsimp only
  split
  · unfold Body.updateVelocity; split <;> rfl
  · rfl

/-! ## Examples -/

/-- A ball of radius 1 whose centre is 1 above the line of a rod of radius 1/4. -/
noncomputable def exSunkBodies (k : Nat) : Body ℝ :=
  if k = 0 then { Body.blank with m := 2, mInv := 1/2, i := 1, iInv := 1, p := ⟨3, 0⟩, tr := ⟨1, 0, 0, 1, 3, 0⟩ }
  else { Body.blank with m := 100000, i := 100000, idle := 100000 }

/-- The hypotheses of `C122_floor` and `C122_converges`. -/
example : Made realMth exLying exLyingFig ∧ 1 ≤ exLying.persistence ∧ InFloor realMth exLying exLyingFig exSunkBodies (1/60) 10 1 (1/4) ⟨-9, -1⟩ ⟨9, -1⟩ ∧
    realMth.pow exLying.par.cbias (1/60) < 1 ∧ excess 1 (1/4) exLying.par.slop (-1) (exSunkBodies 0).p.y = 3/20 := by
  have hc : realMth.cos 0 = 1 ∧ realMth.sin 0 = 0 := ⟨Real.cos_zero, Real.sin_zero⟩
  have hcog : (exSunkBodies 0).cog = ⟨0, 0⟩ := rfl
  have h0 : (exLying.figs 0).body = 0 := rfl
  have h1 : (exLying.figs 1).body = 1 := rfl
  have b0 : exSunkBodies 0 = { Body.blank with m := 2, mInv := 1/2, i := 1, iInv := 1, p := ⟨3, 0⟩, tr := ⟨1, 0, 0, 1, 3, 0⟩ } := if_pos rfl
  have b1 : ∀ k, k ≠ 0 → exSunkBodies k = { Body.blank with m := 100000, i := 100000, idle := 100000 } := fun k hk => if_neg hk
  have hpow : realMth.pow exLying.par.cbias (1/60) < 1 := Real.rpow_lt_one (by norm_num [exLying]) (by norm_num [exLying]) (by norm_num)
  refine ⟨exLying_hyps.1, exLying_hyps.2.1, ?_, hpow, by rw [b0]; norm_num [excess, exLying]⟩
  constructor
  case ball => simp [exLyingFig, h0, hcog]
  case rod => simp [exLyingFig]
  case apart => simp [h0, h1]
  case rest =>
    intro k
    by_cases hk : k = 0
    · subst hk
      rw [b0]
      constructor <;> simp [Body.blank, V2.zero, Body.mkTransform, Transform.transpose, hc]
    · rw [b1 k hk]
      constructor <;> simp [Body.blank, V2.zero, Body.mkTransform, Transform.transpose, hc, Transform.identity]
  case moved => rw [h0, b0]; norm_num [exLying, Body.blank]
  case fixed => intro k hk; rw [h0] at hk; rw [b1 k hk]; exact ⟨rfl, rfl⟩
  case level => rw [h1, b1 1 (by decide)]; norm_num [Transform.apply, Body.blank, Transform.identity]
  case left => rw [h0, h1, b0, b1 1 (by decide)]; norm_num [Transform.apply, Body.blank, Transform.identity]
  case right => rw [h0, h1, b0, b1 1 (by decide)]; norm_num [Transform.apply, Body.blank, Transform.identity]
  case wide => rw [h1, b1 1 (by decide)]; norm_num [Transform.apply, Body.blank, Transform.identity]
  case above => rw [h0, h1, b0, b1 1 (by decide)]; norm_num [Transform.apply, Body.blank, Transform.identity]
  case deep => rw [h0, h1, b0, b1 1 (by decide)]; norm_num [Transform.apply, Body.blank, Transform.identity, exLying]
  case slop => norm_num [exLying]
  case rate => exact ⟨Real.rpow_nonneg (by norm_num [exLying]) _, hpow.le⟩
  case gravity => norm_num [exLying]
  case length => norm_num
  case iterations => norm_num [exLying]
  case friction => norm_num [exLying]
  case still => exact ⟨rfl, rfl⟩
  case accepts => exact ⟨.inl rfl, ⟨0, by decide, by decide, by decide⟩, ⟨0, by decide, by decide, by decide⟩⟩
  case sensor => exact ⟨rfl, rfl⟩

/-- The hypotheses of `C122_gap`: one ball is thrown at another. -/
example (shapes : Nat → CShape ℝ) (hs : ∀ i, (shapes i).bb.L ≤ (shapes i).bb.R ∧ (shapes i).bb.B ≤ (shapes i).bb.T) (t : Tick ℝ)
    (ht : t = ⟨1/60, [0, 1], [0, 1], fun _ _ => true, fun _ _ => true⟩) :
    ∃ (w : World ℝ) (i j : Nat) (n r1 r2 : V2 ℝ), n.x ^ 2 + n.y ^ 2 = 1 ∧ Impact realMth (exThrown false) t w (w.step realMth (exThrown false) t) i j n r1 r2 ∧
      0 < ((w.step realMth (exThrown false) t).bodies ((exThrown false).figs i).body).mInv + ((w.step realMth (exThrown false) t).bodies ((exThrown false).figs j).body).mInv ∧
      Unbiased t.dyn ((exThrown false).figs i).body ((exThrown false).figs j).body w.bodies ∧ 0 < t.dt ∧ realMth.pow (exThrown false).par.cbias t.dt ≤ 1 ∧
      ∀ k, k = ((exThrown false).figs i).body ∨ k = ((exThrown false).figs j).body → k ∈ t.dyn := by
  obtain ⟨h1, h2, h3, w, e, w1, w2, w3, ⟨i, j⟩, p1, p2, p3⟩ := exThrown_meet false shapes hs t (by rw [ht]; rfl)
  have h0 : t.dt ≠ 0 := by rw [ht]; norm_num
  obtain ⟨w', e', H⟩ := C120_balls realMth_lawful h1 (by norm_num [exThrown]) (by norm_num [exThrown]) _ shapes h2 hs _ t h3 h0
  obtain rfl : w = w' := Option.some.inj (e.symm.trans e')
  have hin : ∀ k : Nat, k % 2 ∈ [0, 1] := by intro k; simp; omega
  have hb : ∀ k, k = ((exThrown false).figs i).body ∨ k = ((exThrown false).figs j).body → k ∈ t.dyn := by
    rw [ht]; rintro k (rfl | rfl) <;> exact hin _
  obtain ⟨n, d, hn, -, -, -, H'⟩ := H i j 1 1 (by rw [p1]; exact List.mem_cons_self) (by rw [two_roster]; rcases p2 with h | h <;> (obtain ⟨rfl, rfl⟩ := Prod.mk.inj h) <;> simp)
    (by rw [two_roster]; rcases p2 with h | h <;> (obtain ⟨rfl, rfl⟩ := Prod.mk.inj h) <;> simp)
    (by rw [w1]; rcases p2 with h | h <;> (obtain ⟨rfl, rfl⟩ := Prod.mk.inj h) <;> norm_num [exThrownFig, exThrown, exThrownBodies, Body.blank, V2.zero])
    (by rw [w1]; rcases p2 with h | h <;> (obtain ⟨rfl, rfl⟩ := Prod.mk.inj h) <;> norm_num [exThrownFig, exThrown, exThrownBodies, Body.blank, V2.zero])
    (by rw [w1]; rcases p2 with h | h <;> (obtain ⟨rfl, rfl⟩ := Prod.mk.inj h) <;> norm_num [exThrown, exThrownBodies, Body.blank, V2.zero, Centred, Transform.apply, Transform.identity])
    (by rw [w1]; rcases p2 with h | h <;> (obtain ⟨rfl, rfl⟩ := Prod.mk.inj h) <;> norm_num [exThrown, exThrownBodies, Body.blank, V2.zero, Centred, Transform.apply, Transform.identity])
    (by rw [w1]; rcases p2 with h | h <;> (obtain ⟨rfl, rfl⟩ := Prod.mk.inj h) <;> norm_num [exThrown, exThrownBodies, Body.blank, Movable])
    (by norm_num [exThrown]) p3
  refine ⟨w, i, j, n, _, _, hn, H', ?_, fun k hk hkd => absurd (hb k hk) hkd, by rw [ht]; norm_num, ?_, hb⟩
  · rw [step_masses _ _ _ _ h0, step_masses _ _ _ _ h0, w1]
    rcases p2 with h | h <;> (obtain ⟨rfl, rfl⟩ := Prod.mk.inj h) <;> norm_num [exThrown, exThrownBodies]
  · exact Real.rpow_le_one (by norm_num [exThrown]) (by norm_num [exThrown]) (by rw [ht]; norm_num)

end Cm
