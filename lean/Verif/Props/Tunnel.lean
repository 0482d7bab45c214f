import Verif.Props.Sunk
/-! # C124: a ball does not fall through a floor -/
set_option linter.unusedSectionVars false
set_option linter.unusedSimpArgs false
set_option linter.unusedVariables false

namespace Cm
open Spec
variable {K : Type} [Field K] [LinearOrder K] [IsStrictOrderedRing K]

namespace Spec
/-- There is a level floor: shape 0 is a ball about the centre of gravity of its body, shape 1 a rod on a body that neither moves nor can be moved, level at the height `f` from `x₁` to `x₂`.
The ball may fly, spin and be pulled as it likes; elasticity is between 0 and 1, and friction not negative. -/
structure OverFloor (M : Mth K) (sc : Scene K) (fig : Nat → Figure K) (bodies : Nat → Body K) (dt ρ r f x₁ x₂ : K) (a b : V2 K) : Prop where
  ball : fig 0 = .ball ρ (bodies (sc.figs 0).body).cog
  rod : fig 1 = .rod a b r
  apart : (sc.figs 0).body ≠ (sc.figs 1).body
  rigid : ∀ k, Rigid (bodies k).tr
  moved : (bodies (sc.figs 0).body).m ≠ sc.par.inf ∧ 0 < (bodies (sc.figs 0).body).mInv ∧ 0 ≤ (bodies (sc.figs 0).body).iInv
  placed : Centred (bodies (sc.figs 0).body)
  unbiased : (bodies (sc.figs 0).body).vBias = ⟨0, 0⟩
  fixed : Immovable (bodies (sc.figs 1).body)
  rest : (bodies (sc.figs 1).body).v = ⟨0, 0⟩ ∧ (bodies (sc.figs 1).body).w = 0 ∧ (bodies (sc.figs 1).body).vBias = ⟨0, 0⟩ ∧ (bodies (sc.figs 1).body).wBias = 0
  left : (bodies (sc.figs 1).body).tr.apply a = ⟨x₁, f⟩
  right : (bodies (sc.figs 1).body).tr.apply b = ⟨x₂, f⟩
  wide : x₁ < x₂
  rate : M.pow sc.par.cbias dt ≤ 1
  length : 0 < dt
  iterations : sc.par.iterations ≠ 0
  elastic : 0 ≤ (sc.figs 0).surface.elasticity * (sc.figs 1).surface.elasticity ∧ (sc.figs 0).surface.elasticity * (sc.figs 1).surface.elasticity ≤ 1
  friction : 0 ≤ (sc.figs 0).surface.friction * (sc.figs 1).surface.friction
  accepts : Accepts (sc.figs 0).filter (sc.figs 1).filter
  sensor : (sc.figs 0).sensor = false ∧ (sc.figs 1).sensor = false

/-- `P` holds now and after each of the steps. -/
def Throughout (M : Mth K) (sc : Scene K) (P : World K → Prop) : World K → List (Tick K) → Prop
  | w, [] => P w
  | w, t :: ts => P w ∧ Throughout M sc P (w.step M sc t) ts
end Spec

/-- What holds all the time: the ball is not lower than `l`, and will not be after the next step. -/
structure Aloft (sc : Scene K) (bodies : Nat → Body K) (ro : Roster) (dt l : K) (w : World K) : Prop where
  upright : Upright sc ro w
  filed : Filed w
  unrefused : Unrefused w
  joints : w.joints = []
  barred : ∀ i j, w.barred i j = false
  floor : w.bodies (sc.figs 1).body = bodies (sc.figs 1).body
  ball : (w.bodies (sc.figs 0).body).m = (bodies (sc.figs 0).body).m ∧ (w.bodies (sc.figs 0).body).mInv = (bodies (sc.figs 0).body).mInv ∧
    (w.bodies (sc.figs 0).body).iInv = (bodies (sc.figs 0).body).iInv ∧ (w.bodies (sc.figs 0).body).cog = (bodies (sc.figs 0).body).cog
  low : l ≤ (w.bodies (sc.figs 0).body).p.y
  next : l ≤ (w.bodies (sc.figs 0).body).p.y + (w.bodies (sc.figs 0).body).v.y * dt
  lift : 0 ≤ (w.bodies (sc.figs 0).body).vBias.y

/-- One step: above the floor the ball flies on; where it touches, it leaves with at least the elasticity times the speed of its approach, and is only lifted by the correction. -/
theorem floor_step {M : Mth K} (hM : M.Lawful) {sc : Scene K} {fig : Nat → Figure K} (hm : Made M sc fig) (hper : 1 ≤ sc.persistence) {bodies : Nat → Body K}
    {dt ρ r f x₁ x₂ l : K} {a b : V2 K} (h : OverFloor M sc fig bodies dt ρ r f x₁ x₂ a b) (hl : f < l)
    {ro : Roster} (hro : ∀ i, ro i = if i = 1 then some false else if i = 0 then some true else none)
    {w : World K} (hw : Aloft sc bodies ro dt l w) {t : Tick K} (ht : t.dt = dt ∧ t.dyn = [(sc.figs 0).body] ∧ t.order = [0] ∧ Accepting t)
    (hx : x₁ ≤ ((w.step M sc t).bodies (sc.figs 0).body).p.x ∧ ((w.step M sc t).bodies (sc.figs 0).body).p.x ≤ x₂) :
    let b' := (w.step M sc t).bodies (sc.figs 0).body
    (f + (ρ + r) ≤ b'.p.y → b' = ((w.bodies (sc.figs 0).body).updatePosition M dt).updateVelocity sc.par.inf sc.par.gravity (M.pow sc.par.damping dt) dt) ∧
    (b'.p.y < f + (ρ + r) → -((sc.figs 0).surface.elasticity * (sc.figs 1).surface.elasticity * (w.bodies (sc.figs 0).body).v.y) ≤ b'.v.y) ∧
    ((f + (ρ + r) ≤ b'.p.y → l ≤ b'.p.y + b'.v.y * dt) → Aloft sc bodies ro dt l (w.step M sc t)) := by
  classical
  obtain ⟨t1, t2, t3, t4⟩ := ht
  have h0 : t.dt ≠ 0 := by rw [t1]; exact h.length.ne'
  have hro1 : ∀ i, ro i ≠ none → i = 0 ∨ i = 1 := by
    intro i hi; rw [hro] at hi
    by_cases h1 : i = 1
    · exact .inr h1
    · by_cases h0 : i = 0
      · exact .inl h0
      · rw [if_neg h1, if_neg h0] at hi; exact absurd rfl hi
  have heasy : AllEasy sc fig ro := by
    intro i j hi hj hd hbo
    rcases hro1 i hi with rfl | rfl <;> rcases hro1 j hj with rfl | rfl
    · exact absurd rfl hbo
    · rw [h.ball, h.rod]; exact trivial
    · rw [h.ball, h.rod]; exact trivial
    · exact absurd rfl hbo
  have t5 : WOk sc ro (.step t) := by
    refine ⟨by rw [t3]; simp, fun i => ?_, fun j hj => ?_⟩
    · rw [t3, hro]
      by_cases h1 : i = 1
      · subst h1; simp
      · by_cases h0 : i = 0
        · subst h0; simp
        · simp [h1, h0]
    · rw [t2, List.mem_singleton]
      rcases hro1 j (by rw [hj]; simp) with rfl | rfl
      · rw [hro] at hj; simp at hj
      · exact h.apart.symm
  intro b'
  obtain ⟨b1, b2, b3, b4⟩ := hw.ball
  obtain ⟨v1, w1, vb1, wb1⟩ := h.rest
  obtain ⟨m1, i1⟩ := h.fixed
  obtain ⟨-, -, g3, g4, g5⟩ := step_frame M sc t w h0
  obtain ⟨hbu, hcur⟩ := begun_upright hM hm hw.upright t t5
  have hbeg : ∀ k, (w.begun M sc t).bodies k = if k = (sc.figs 0).body then (w.bodies k).updatePosition M dt else w.bodies k := by
    intro k
    show (SolverState.positions M t.dyn t.dt ⟨w.bodies, [], w.joints⟩).bodies k = _
    simp only [SolverState.positions, t1, t2, List.mem_singleton]
  have hbeg0 : (w.begun M sc t).bodies (sc.figs 0).body = (w.bodies (sc.figs 0).body).updatePosition M dt := by rw [hbeg, if_pos rfl]
  have hbeg1 : (w.begun M sc t).bodies (sc.figs 1).body = bodies (sc.figs 1).body := by rw [hbeg, if_neg h.apart.symm, hw.floor]
  have hp0 : ((w.step M sc t).bodies (sc.figs 0).body).p = ((w.bodies (sc.figs 0).body).updatePosition M dt).p := by rw [(g5 _).2.1, hbeg0]
  have hcen : ((w.bodies (sc.figs 0).body).updatePosition M dt).tr.apply (bodies (sc.figs 0).body).cog = ((w.step M sc t).bodies (sc.figs 0).body).p := by
    rw [hp0, ← b4]; exact moved_centre hM (w.bodies (sc.figs 0).body) dt
  have hpy : ((w.step M sc t).bodies (sc.figs 0).body).p.y =
      (w.bodies (sc.figs 0).body).p.y + ((w.bodies (sc.figs 0).body).v.y + (w.bodies (sc.figs 0).body).vBias.y) * dt := by
    rw [hp0]; simp only [Body.updatePosition, Body.setTransform, V2.add, V2.scale]
  have hstill : (w.step M sc t).bodies (sc.figs 1).body = bodies (sc.figs 1).body := by
    rw [← hw.floor]
    refine C115_still M sc _ [.step t] w _ (by rw [hw.floor]; exact h.fixed) rfl (fun inp hi => ?_) (fun b hb => by simp at hb)
    simp only [List.mem_singleton, WorldOp.step.injEq] at hi
    rw [hi, t2, List.mem_singleton]; exact h.apart.symm
  have hsame : ((w.step M sc t).bodies (sc.figs 0).body).m = (bodies (sc.figs 0).body).m ∧ ((w.step M sc t).bodies (sc.figs 0).body).mInv = (bodies (sc.figs 0).body).mInv ∧
      ((w.step M sc t).bodies (sc.figs 0).body).iInv = (bodies (sc.figs 0).body).iInv ∧ ((w.step M sc t).bodies (sc.figs 0).body).cog = (bodies (sc.figs 0).body).cog := by
    have hs := step_same M sc t w h0 (sc.figs 0).body
    rw [if_pos (by rw [t2]; exact List.mem_cons_self)] at hs
    rw [← b1, ← b2, ← b3, ← b4]
    refine ⟨(congrArg Body.m hs).trans ?_, (congrArg Body.mInv hs).trans ?_, (congrArg Body.iInv hs).trans ?_, (congrArg Body.cog hs).trans ?_⟩ <;>
      (dsimp only; unfold Body.updateVelocity; split <;> rfl)
  have hjoints : (w.step M sc t).joints = [] := by
    obtain ⟨-, e, -⟩ := C111_step M sc t w ⟨w.bodies, [], w.joints⟩ rfl rfl
    have e' := step_ends M sc.par w.prevDT ⟨t.dt, t.dyn, collisions M sc t w⟩ ⟨w.bodies, [], w.joints⟩
    rw [← e, hw.joints] at e'
    exact List.map_eq_nil_iff.1 e'
  have hc := calls_apart hM hm hw.upright t t5
  obtain ⟨w2, ew2, hu'⟩ := run1_upright hM hm hw.upright (.step t) t5
  obtain rfl := Option.some.inj ew2
  have hlow : l ≤ ((w.step M sc t).bodies (sc.figs 0).body).p.y := by
    rw [hpy]
    have := mul_nonneg hw.lift h.length.le
    linarith [hw.next]
  obtain ⟨fd, fd1, fd2, fd3⟩ := step_exact hM hm hw.upright t t5 h0 (finds_detects hM hm hw.upright t t5 (.inl heasy))
  suffices hsuff : (f + (ρ + r) ≤ b'.p.y → b' = ((w.bodies (sc.figs 0).body).updatePosition M dt).updateVelocity sc.par.inf sc.par.gravity (M.pow sc.par.damping dt) dt ∧ 0 ≤ b'.vBias.y) ∧
      (b'.p.y < f + (ρ + r) → -((sc.figs 0).surface.elasticity * (sc.figs 1).surface.elasticity * (w.bodies (sc.figs 0).body).v.y) ≤ b'.v.y ∧ 0 ≤ b'.vBias.y ∧ l ≤ b'.p.y + b'.v.y * dt) from
    ⟨fun z => (hsuff.1 z).1, fun z => (hsuff.2 z).1, fun z => ⟨hu', step_filed M sc hper t w h0 hw.filed.one hc, step_unrefused M (sc := sc) t4 h0 hw.filed.one hw.unrefused, hjoints,
      fun i j => by rw [g3]; exact hw.barred i j, hstill, hsame, hlow, (le_or_gt (f + (ρ + r)) b'.p.y).elim z fun q => (hsuff.2 q).2.2,
      (le_or_gt (f + (ρ + r)) b'.p.y).elim (fun q => (hsuff.1 q).2) fun q => (hsuff.2 q).2.1⟩⟩
  have hr0 : 0 ≤ ρ := by have := (hm 0).1; rw [h.ball] at this; exact this
  have hr1 : 0 ≤ r := by have := (hm 1).1; rw [h.rod] at this; exact this.1
  have tr0 : ((w.step M sc t).bodies (sc.figs 0).body).tr = ((w.bodies (sc.figs 0).body).updatePosition M dt).tr := by rw [(g5 _).2.2.2, hbeg0]
  have tr1 : ((w.step M sc t).bodies (sc.figs 1).body).tr = (bodies (sc.figs 1).body).tr := by rw [(g5 _).2.2.2, hbeg1]
  refine ⟨fun hhigh => ?_, fun hlo => ?_⟩
  · -- nothing touches
    change f + (ρ + r) ≤ ((w.step M sc t).bodies (sc.figs 0).body).p.y at hhigh
    have clear := high_clear (t := ((w.bodies (sc.figs 0).body).updatePosition M dt).tr) (u := (bodies (sc.figs 1).body).tr) (c := (bodies (sc.figs 0).body).cog) (a := a) (b := b) (y := f) hr0 hr1
      (by rw [h.left]) (by rw [h.right]) (by rw [hcen]; linarith)
    have hun : ∀ i j, ¬ Colliding sc fig ro (w.step M sc t) i j := by
      rintro i j ⟨c1, c2, c3, -, c5, -, -, c8⟩
      rcases hro1 i c2 with rfl | rfl <;> rcases hro1 j c3 with rfl | rfl
      · exact absurd rfl c1
      · rw [tr0, tr1, h.ball, h.rod] at c8; exact absurd c8 clear.1
      · rw [tr0, tr1, h.ball, h.rod] at c8; exact absurd c8 clear.2
      · exact absurd rfl c1
    have hcol : ∀ l ∈ collisions M sc t w, False := by
      intro l hl
      obtain ⟨x, hx, rfl⟩ := List.mem_map.1 hl
      have hx' : x ∈ (w.step M sc t).active := by rw [g4]; exact hx
      rw [fd3, List.mem_filter] at hx'
      exact hun x.1 x.2 ((fd2 _ _).1 ⟨x, hx'.1, .inl rfl⟩)
    have alone := C115_alone M sc t w h0 (sc.figs 0).body (by rw [hw.joints]; intro l hl; cases hl) (fun l hl => (hcol l hl).elim)
    rw [if_pos (by rw [t2]; exact List.mem_cons_self), t1] at alone
    refine ⟨alone, ?_⟩
    show 0 ≤ ((w.step M sc t).bodies (sc.figs 0).body).vBias.y
    rw [alone]
    refine le_of_eq ?_
    unfold Body.updateVelocity
    split <;> simp [Body.updatePosition, Body.setTransform, V2.zero]
  · -- the ball touches the floor
    change ((w.step M sc t).bodies (sc.figs 0).body).p.y < f + (ρ + r) at hlo
    have hon : ((w.step M sc t).bodies (sc.figs 0).body).p.y - f < ρ + r := by linarith
    have habove : 0 < ((w.step M sc t).bodies (sc.figs 0).body).p.y - f := by linarith
    generalize hP : ((w.step M sc t).bodies (sc.figs 0).body).p = P at *
    have hcoll : Colliding sc fig ro (w.step M sc t) 0 1 := by
      refine ⟨by decide, by rw [hro]; simp, by rw [hro]; simp, .inl (by rw [hro]; simp), h.apart, h.accepts, by rw [g3]; exact hw.barred _ _, ?_⟩
      rw [tr0, tr1, h.ball, h.rod]
      have hd : 0 < x₂ - x₁ := sub_pos.2 h.wide
      refine ⟨_, At a b ((P.x - x₁) / (x₂ - x₁)), rfl, ⟨_, div_nonneg (by linarith [hx.1]) hd.le, (div_le_one hd).2 (by linarith [hx.2]), rfl⟩, ?_⟩
      have hq : (bodies (sc.figs 1).body).tr.apply (At a b ((P.x - x₁) / (x₂ - x₁))) = ⟨P.x, f⟩ := by
        rw [apply_at, h.left, h.right]
        have := div_mul_cancel₀ (P.x - x₁) hd.ne'
        apply V2.ext
        · show _ + _ * _ = _
          rw [this]; ring
        · show _ + _ * (_ - _) = _
          ring
      have hlt : dist2 (((w.bodies (sc.figs 0).body).updatePosition M dt).tr.apply (bodies (sc.figs 0).body).cog) ⟨P.x, f⟩ < (ρ + r) * (ρ + r) := by
        rw [hcen]
        have := mul_self_lt_mul_self habove.le hon
        simp only [dist2]
        nlinarith
      rw [hq]
      exact ⟨hlt.le, fun _ => hlt⟩
    obtain ⟨p, rfl, hp⟩ := only_pair fd1 ((fd2 0 1).2 hcoll) (fun p hp => by
      obtain ⟨c1, c2, c3, -⟩ := (fd2 p.1 p.2).1 ⟨p, hp, .inl rfl⟩
      obtain ⟨i, j⟩ := p
      rcases hro1 i c2 with rfl | rfl <;> rcases hro1 j c3 with rfl | rfl
      · exact absurd rfl c1
      · exact .inl rfl
      · exact .inr rfl
      · exact absurd rfl c1)
    have hwant : Wanted sc t w p := by
      rw [wanted_iff t4 hw.unrefused]
      have hmass : ¬ ((w.bodies (sc.figs 0).body).m = sc.par.inf ∧ (w.bodies (sc.figs 1).body).m = sc.par.inf) := fun hh => h.moved.1 (by rw [← b1]; exact hh.1)
      rcases hp with rfl | rfl
      · exact ⟨h.sensor.1, h.sensor.2, hmass⟩
      · exact ⟨h.sensor.2, h.sensor.1, fun hh => hmass ⟨hh.2, hh.1⟩⟩
    have hact : (w.step M sc t).active = [p] := by rw [fd3]; simp [hwant]
    have hrr0 : ro 0 ≠ none := by rw [hro]; simp
    have hrr1 : ro 1 ≠ none := by rw [hro]; simp
    have hp01 : p = (0, 1) := by
      rcases hp with hp | hp
      · exact hp
      · refine absurd ?_ (ball_first hM hm hper hw.upright hw.filed t5 h0 hrr0 hrr1 h.ball h.rod)
        rw [hact, hp]; exact List.mem_cons_self
    subst hp01
    have hlev : ∀ sw id, circleToSegment M ⟨(bodies (sc.figs 0).body).cog, ((w.bodies (sc.figs 0).body).updatePosition M dt).tr.apply (bodies (sc.figs 0).body).cog, ρ⟩
        ((Segment.new M a b r).cache (bodies (sc.figs 1).body).tr).1 ⟨(bodies (sc.figs 1).body).tr.a, (bodies (sc.figs 1).body).tr.b⟩ ⟨sw, id, V2.zero, []⟩ =
        ⟨sw, id, ⟨0, -1⟩, [⟨⟨P.x, P.y - ρ⟩, ⟨P.x, f + r⟩, 0⟩]⟩ := by
      intro sw id
      rw [hcen]
      have e1 : ((Segment.new M a b r).cache (bodies (sc.figs 1).body).tr).1.ta = ⟨x₁, f⟩ := h.left
      have e2 : ((Segment.new M a b r).cache (bodies (sc.figs 1).body).tr).1.tb = ⟨x₂, f⟩ := h.right
      have := on_level hM (bodies (sc.figs 0).body).cog P.x P.y ρ ((Segment.new M a b r).cache (bodies (sc.figs 1).body).tr).1 ⟨(bodies (sc.figs 1).body).tr.a, (bodies (sc.figs 1).body).tr.b⟩ sw id
        (by rw [e1, e2]) (by rw [e1, e2]; exact h.wide) (by rw [e1]; exact hx.1) (by rw [e2]; exact hx.2) rfl rfl (by rw [e1]; exact habove) (by rw [e1]; exact hon)
      rw [e1] at this
      exact this
    have hpos0 : ((w.bodies (sc.figs 0).body).updatePosition M dt).p = P := hp0.symm
    obtain ⟨c, -, -, c1, c2, law, -, drawn⟩ := impact hM hm hper h.iterations hw.upright hw.filed t5 h0 (i := 0) (j := 1) (by rw [hact]; exact List.mem_cons_self)
      ⟨fun x hx hne => absurd (by rw [hact] at hx; exact List.mem_singleton.1 hx) hne, fun l hl => by rw [hw.joints] at hl; cases hl⟩
      (by rw [hw.floor]; exact ⟨by rw [b2]; exact h.moved.2.1.le, m1.ge, by rw [b3]; exact h.moved.2.2, i1.ge, by rw [b2, m1, add_zero]; exact h.moved.2.1⟩)
      h.friction (n := ⟨0, -1⟩) (r1 := ⟨0, -ρ⟩) (r2 := ⟨P.x - (bodies (sc.figs 1).body).p.x, f + r - (bodies (sc.figs 1).body).p.y⟩)
      (fun p info hhit hpair => by
        obtain ⟨-, nb1, id, col⟩ := hit_collide hbu.proper hhit
        have hp' : p = (0, 1) ∨ p = (1, 0) := by
          unfold Info.pair at hpair
          split at hpair
          · exact .inr (Prod.ext (congrArg Prod.snd hpair) (congrArg Prod.fst hpair))
          · exact .inl hpair
        rw [hbeg0, hbeg1, hpos0]
        rcases hp' with rfl | rfl
        · dsimp only at col
          rw [hcur _ hrr0, hcur _ hrr1, (hm _).2, (hm _).2, h.ball, h.rod, ball_rod, hbeg0, hbeg1, hlev] at col
          obtain rfl := Option.some.inj col
          exact ⟨rfl, _, rfl, by simp [V2.sub], rfl⟩
        · dsimp only at col
          rw [hcur _ hrr0, hcur _ hrr1, (hm _).2, (hm _).2, h.ball, h.rod, rod_ball, hbeg0, hbeg1, hlev] at col
          obtain rfl := Option.some.inj col
          exact ⟨rfl, _, rfl, by simp [V2.sub], rfl⟩)
      (by norm_num) (by rw [hw.floor]; exact ⟨by simp, by rw [i1, zero_mul]⟩)
    obtain ⟨⟨d1, -⟩, -⟩ := drawn (by
      intro k hk hkd
      rw [t2, List.mem_singleton] at hkd
      rcases hk with hk | hk
      · exact absurd hk hkd
      · rw [hk, hw.floor]; exact ⟨vb1, wb1⟩) (by rw [t1]; exact h.length) (by rw [t1]; exact h.rate)
    have hvel : -((sc.figs 0).surface.elasticity * (sc.figs 1).surface.elasticity * (w.bodies (sc.figs 0).body).v.y) ≤ ((w.step M sc t).bodies (sc.figs 0).body).v.y := by
      unfold Lawful at law
      rw [hstill, hw.floor, c1] at law
      have s1 : ∀ q : Body K, speed q (bodies (sc.figs 1).body) ⟨0, -ρ⟩ c.r2 ⟨0, -1⟩ = q.v.y := by
        intro q; simp only [speed, v1, w1]; ring
      rw [s1, s1] at law
      rcases law.push.lt_or_eq with hj | hj
      · exact (law.rebound hj).ge
      · exact law.part hj.symm
    refine ⟨hvel, ?_, ?_⟩
    · -- the correction
      show 0 ≤ ((w.step M sc t).bodies (sc.figs 0).body).vBias.y
      rw [d1]
      have hz : 0 ≤ (1 - M.pow sc.par.cbias t.dt) * max 0 (past ⟨0, -1⟩ ((w.step M sc t).bodies (sc.figs 0).body) ((w.step M sc t).bodies (sc.figs 1).body) c - sc.par.slop) / t.dt /
          (((w.step M sc t).bodies (sc.figs 0).body).mInv + ((w.step M sc t).bodies (sc.figs 1).body).mInv) := by
        refine div_nonneg (div_nonneg (mul_nonneg (by rw [t1]; linarith [h.rate]) (le_max_left _ _)) (by rw [t1]; exact h.length.le)) ?_
        rw [hsame.2.1, hstill, m1, add_zero]; exact h.moved.2.1.le
      have := mul_nonneg hz (by rw [hsame.2.1]; exact h.moved.2.1.le : (0 : K) ≤ ((w.step M sc t).bodies (sc.figs 0).body).mInv)
      dsimp only
      linarith
    · -- the place after that
      show l ≤ P.y + ((w.step M sc t).bodies (sc.figs 0).body).v.y * dt
      obtain ⟨e0, e1⟩ := h.elastic
      generalize (sc.figs 0).surface.elasticity * (sc.figs 1).surface.elasticity = e at *
      have hdt := h.length
      have hlift := mul_nonneg hw.lift hdt.le
      have hmul := mul_le_mul_of_nonneg_right hvel hdt.le
      rcases le_total (w.bodies (sc.figs 0).body).v.y 0 with hn | hn
      · have : 0 ≤ ((w.step M sc t).bodies (sc.figs 0).body).v.y := le_trans (by have := mul_nonpos_of_nonneg_of_nonpos e0 hn; linarith) hvel
        have := mul_nonneg this hdt.le
        linarith
      · have h2 : e * (w.bodies (sc.figs 0).body).v.y * dt ≤ (w.bodies (sc.figs 0).body).v.y * dt :=
          mul_le_mul_of_nonneg_right (mul_le_of_le_one_left hn e1) hdt.le
        have h3 := hw.low
        rw [hpy]
        linarith

/-- The legality of the steps, and what they start from. -/
theorem floor_start {M : Mth K} (hM : M.Lawful) {sc : Scene K} {fig : Nat → Figure K} (hm : Made M sc fig) (hper : 1 ≤ sc.persistence) {bodies : Nat → Body K}
    (shapes : Nat → CShape K) (hs : ∀ i, (shapes i).bb.L ≤ (shapes i).bb.R ∧ (shapes i).bb.B ≤ (shapes i).bb.T)
    {dt ρ r f x₁ x₂ l : K} {a b : V2 K} (h : OverFloor M sc fig bodies dt ρ r f x₁ x₂ a b) (h1 : l ≤ (bodies (sc.figs 0).body).p.y)
    (h2 : l ≤ (bodies (sc.figs 0).body).p.y + (bodies (sc.figs 0).body).v.y * dt) :
    ∃ w, (World.init bodies shapes).run M sc (twoOps false) = some w ∧ w.bodies = bodies ∧ Aloft sc bodies (rosterAfter (fun _ => none) (twoOps (K := K) false)) dt l w := by
  have hl : WLegal sc (fun _ => none) (twoOps (K := K) false) := by
    refine ⟨rfl, ?_, trivial⟩
    simp [WOk, rosterStep, Roster.set]
  obtain ⟨w, e, hu, hfi⟩ := run_filed hM hm hper _ _ _ (init_upright sc bodies shapes h.rigid hs) ⟨List.Pairwise.nil, List.Pairwise.nil, (fun p hp => by cases hp)⟩ hl
  obtain ⟨w1, w2, w3, w4⟩ := put_two M sc bodies shapes e
  refine ⟨w, e, w1, hu, hfi, (by intro x hx; rw [w2] at hx; cases hx), w3, w4, by rw [w1], by rw [w1]; exact ⟨rfl, rfl, rfl, rfl⟩, by rw [w1]; exact h1, by rw [w1]; exact h2, ?_⟩
  rw [w1, h.unbiased]

/-- **C124.** A ball does not fall through a floor. As long as the ball is over the floor, and not falling faster than `V` while it touches nothing, its centre is never lower than
`V * dt` below the place where it just touches, however often it bounces, whatever its spin, the friction, the gravity, the forces and the number of steps. -/
theorem C124_floor {M : Mth K} (hM : M.Lawful) {sc : Scene K} {fig : Nat → Figure K} (hm : Made M sc fig) (hper : 1 ≤ sc.persistence) (bodies : Nat → Body K)
    (shapes : Nat → CShape K) (hs : ∀ i, (shapes i).bb.L ≤ (shapes i).bb.R ∧ (shapes i).bb.B ≤ (shapes i).bb.T)
    {dt ρ r f x₁ x₂ V : K} {a b : V2 K} (h : OverFloor M sc fig bodies dt ρ r f x₁ x₂ a b) (hV : V * dt < ρ + r)
    (hy : f + (ρ + r) - V * dt ≤ (bodies (sc.figs 0).body).p.y) (hv : (bodies (sc.figs 0).body).p.y < f + (ρ + r) → 0 ≤ (bodies (sc.figs 0).body).v.y)
    (ticks : List (Tick K)) (ht : ∀ t ∈ ticks, t.dt = dt ∧ t.dyn = [(sc.figs 0).body] ∧ t.order = [0] ∧ Accepting t) :
    ∃ w, (World.init bodies shapes).run M sc (twoOps false) = some w ∧
      (Throughout M sc (fun w => let q := w.bodies (sc.figs 0).body; x₁ ≤ q.p.x ∧ q.p.x ≤ x₂ ∧ (f + (ρ + r) ≤ q.p.y → -V ≤ q.v.y)) w ticks →
        Throughout M sc (fun w => let q := w.bodies (sc.figs 0).body; f + (ρ + r) - V * dt ≤ q.p.y) w ticks) := by
  have fast : ∀ y v : K, f + (ρ + r) ≤ y → -V ≤ v → f + (ρ + r) - V * dt ≤ y + v * dt := by
    intro y v h1 h2
    have := mul_le_mul_of_nonneg_right h2 h.length.le
    linarith
  obtain ⟨w, e, -, hw⟩ : ∃ w, (World.init bodies shapes).run M sc (twoOps false) = some w ∧ True ∧
      (Throughout M sc (fun w => let q := w.bodies (sc.figs 0).body; x₁ ≤ q.p.x ∧ q.p.x ≤ x₂ ∧ (f + (ρ + r) ≤ q.p.y → -V ≤ q.v.y)) w ticks →
        Aloft sc bodies (rosterAfter (fun _ => none) (twoOps (K := K) false)) dt (f + (ρ + r) - V * dt) w) := by
    rcases lt_or_ge (bodies (sc.figs 0).body).p.y (f + (ρ + r)) with hlt | hge
    · obtain ⟨w, e, -, hw⟩ := floor_start hM hm hper shapes hs h hy (by have := mul_nonneg (hv hlt) h.length.le; linarith)
      exact ⟨w, e, trivial, fun _ => hw⟩
    · by_cases hf : -V ≤ (bodies (sc.figs 0).body).v.y
      · obtain ⟨w, e, -, hw⟩ := floor_start hM hm hper shapes hs h hy (fast _ _ hge hf)
        exact ⟨w, e, trivial, fun _ => hw⟩
      · obtain ⟨w, e, w1, -⟩ := floor_start (l := min (bodies (sc.figs 0).body).p.y ((bodies (sc.figs 0).body).p.y + (bodies (sc.figs 0).body).v.y * dt)) hM hm hper shapes hs h
          (min_le_left _ _) (min_le_right _ _)
        refine ⟨w, e, trivial, fun hth => absurd ?_ hf⟩
        have : x₁ ≤ (w.bodies (sc.figs 0).body).p.x ∧ (w.bodies (sc.figs 0).body).p.x ≤ x₂ ∧ (f + (ρ + r) ≤ (w.bodies (sc.figs 0).body).p.y → -V ≤ (w.bodies (sc.figs 0).body).v.y) := by
          cases ticks with
          | nil => exact hth
          | cons t ts => exact hth.1
        rw [w1] at this
        exact this.2.2 hge
  refine ⟨w, e, fun hth => ?_⟩
  replace hw := hw hth
  clear e
  have hro := two_roster (K := K) false
  generalize rosterAfter (fun _ => none) (twoOps (K := K) false) = ro at hw hro
  induction ticks generalizing w with
  | nil => exact hw.low
  | cons t ts ih =>
    refine ⟨hw.low, ?_⟩
    have ht' := ht t List.mem_cons_self
    have hP : x₁ ≤ ((w.step M sc t).bodies (sc.figs 0).body).p.x ∧ ((w.step M sc t).bodies (sc.figs 0).body).p.x ≤ x₂ ∧
        (f + (ρ + r) ≤ ((w.step M sc t).bodies (sc.figs 0).body).p.y → -V ≤ ((w.step M sc t).bodies (sc.figs 0).body).v.y) := by
      have := hth.2
      cases ts with
      | nil => exact this
      | cons t' ts' => exact this.1
    obtain ⟨-, -, s3⟩ := floor_step hM hm hper h (by linarith) hro hw ht' ⟨hP.1, hP.2.1⟩
    exact ih (fun t' h' => ht t' (List.mem_cons_of_mem _ h')) (w.step M sc t) hth.2 (s3 fun z => fast _ _ z (hP.2.2 z))

/-- **C124.** With damping and without elasticity the speed need not be watched: the terminal velocity bounds it. -/
theorem C124_terminal {M : Mth K} (hM : M.Lawful) {sc : Scene K} {fig : Nat → Figure K} (hm : Made M sc fig) (hper : 1 ≤ sc.persistence) (bodies : Nat → Body K)
    (shapes : Nat → CShape K) (hs : ∀ i, (shapes i).bb.L ≤ (shapes i).bb.R ∧ (shapes i).bb.B ≤ (shapes i).bb.T)
    {dt ρ r f x₁ x₂ V g : K} {a b : V2 K} (h : OverFloor M sc fig bodies dt ρ r f x₁ x₂ a b) (hV : V * dt < ρ + r) (hV0 : 0 ≤ V)
    (he : (sc.figs 0).surface.elasticity * (sc.figs 1).surface.elasticity = 0) (hg : sc.par.gravity.y = -g) (hk : 0 ≤ M.pow sc.par.damping dt) (hterm : g * dt ≤ (1 - M.pow sc.par.damping dt) * V)
    (hfree : (bodies (sc.figs 0).body).force = ⟨0, 0⟩ ∧ (bodies (sc.figs 0).body).idle ≠ sc.par.inf)
    (hy : f + (ρ + r) ≤ (bodies (sc.figs 0).body).p.y) (hv : -V ≤ (bodies (sc.figs 0).body).v.y)
    (ticks : List (Tick K)) (ht : ∀ t ∈ ticks, t.dt = dt ∧ t.dyn = [(sc.figs 0).body] ∧ t.order = [0] ∧ Accepting t) :
    ∃ w, (World.init bodies shapes).run M sc (twoOps false) = some w ∧
      (Throughout M sc (fun w => let q := w.bodies (sc.figs 0).body; x₁ ≤ q.p.x ∧ q.p.x ≤ x₂) w ticks →
        Throughout M sc (fun w => let q := w.bodies (sc.figs 0).body; f + (ρ + r) - V * dt ≤ q.p.y ∧ -V ≤ q.v.y) w ticks) := by
  have hVd := mul_nonneg hV0 h.length.le
  have fast : ∀ y v : K, f + (ρ + r) ≤ y → -V ≤ v → f + (ρ + r) - V * dt ≤ y + v * dt := by
    intro y v h1 h2
    have := mul_le_mul_of_nonneg_right h2 h.length.le
    linarith
  obtain ⟨w, e, w1, hw⟩ := floor_start (l := f + (ρ + r) - V * dt) hM hm hper shapes hs h (by linarith) (fast _ _ hy hv)
  refine ⟨w, e, fun hth => ?_⟩
  have hro := two_roster (K := K) false
  generalize rosterAfter (fun _ => none) (twoOps (K := K) false) = ro at hw hro
  have inv : -V ≤ (w.bodies (sc.figs 0).body).v.y ∧ (w.bodies (sc.figs 0).body).force = ⟨0, 0⟩ ∧ (w.bodies (sc.figs 0).body).idle ≠ sc.par.inf := by
    rw [w1]; exact ⟨hv, hfree⟩
  clear e w1
  induction ticks generalizing w with
  | nil => exact ⟨hw.low, inv.1⟩
  | cons t ts ih =>
    refine ⟨⟨hw.low, inv.1⟩, ?_⟩
    have ht' := ht t List.mem_cons_self
    have hP : x₁ ≤ ((w.step M sc t).bodies (sc.figs 0).body).p.x ∧ ((w.step M sc t).bodies (sc.figs 0).body).p.x ≤ x₂ := by
      have := hth.2
      cases ts with
      | nil => exact this
      | cons t' ts' => exact this.1
    obtain ⟨s1, s2, s3⟩ := floor_step hM hm hper h (by linarith) hro hw ht' hP
    have htype : ((w.bodies (sc.figs 0).body).updatePosition M dt).type sc.par.inf ≠ .kinematic :=
      falls_type ⟨by rw [show ((w.bodies (sc.figs 0).body).updatePosition M dt).m = _ from hw.ball.1]; exact h.moved.1, inv.2.2⟩
    have h0 : t.dt ≠ 0 := by rw [ht'.1]; exact h.length.ne'
    have hsame := step_same M sc t w h0 (sc.figs 0).body
    rw [if_pos (by rw [ht'.2.1]; exact List.mem_cons_self), ht'.1] at hsame
    have hvel : -V ≤ ((w.step M sc t).bodies (sc.figs 0).body).v.y := by
      rcases le_or_gt (f + (ρ + r)) ((w.step M sc t).bodies (sc.figs 0).body).p.y with q | q
      · rw [s1 q]
        unfold Body.updateVelocity
        rw [if_neg htype]
        have e1 : ((w.bodies (sc.figs 0).body).updatePosition M dt).force = ⟨0, 0⟩ := inv.2.1
        have e2 : ((w.bodies (sc.figs 0).body).updatePosition M dt).v = (w.bodies (sc.figs 0).body).v := rfl
        simp only [e1, e2, V2.add, V2.scale, hg]
        have := mul_le_mul_of_nonneg_left inv.1 hk
        linarith
      · have := s2 q
        rw [he, zero_mul, neg_zero] at this
        linarith
    have hrest : ((w.step M sc t).bodies (sc.figs 0).body).force = ⟨0, 0⟩ ∧ ((w.step M sc t).bodies (sc.figs 0).body).idle ≠ sc.par.inf := by
      constructor
      · refine (congrArg Body.force hsame).trans ?_
        dsimp only; unfold Body.updateVelocity; rw [if_neg htype]; rfl
      · rw [show ((w.step M sc t).bodies (sc.figs 0).body).idle = (w.bodies (sc.figs 0).body).idle from (congrArg Body.idle hsame).trans (by
          dsimp only; unfold Body.updateVelocity; rw [if_neg htype]; rfl)]
        exact inv.2.2
    exact ih (fun t' h' => ht t' (List.mem_cons_of_mem _ h')) (w.step M sc t) hth.2 (s3 fun z => fast _ _ z hvel) ⟨hvel, hrest⟩

/-- A ball that falls, slowed down by damping, on a floor without elasticity; the steps have length 1. -/
noncomputable def exDrop : Scene ℝ :=
  ⟨fun i => ⟨(exLyingFig i).made realMth, i % 2, ⟨0#64, 1#64, 1#64⟩, ⟨0, 1/2, ⟨0, 0⟩⟩, false, BitVec.ofNat 64 i⟩, ⟨100000, 1/10, 1/2, 1/2, ⟨0, -1/2⟩, 2⟩, 1/1000, 3,
    fun _ _ => false⟩
noncomputable def exDropBodies (k : Nat) : Body ℝ :=
  if k = 0 then { Body.blank with m := 2, mInv := 1/2, i := 1, iInv := 1, w := 3, v := ⟨0, -1⟩, p := ⟨3, 1/4⟩, tr := ⟨1, 0, 0, 1, 3, 1/4⟩ }
  else { Body.blank with m := 100000, i := 100000, idle := 100000 }

/-- The hypotheses of `C124_terminal`: the ball, which is just about to touch, meets the floor in the very next step. -/
example (shapes : Nat → CShape ℝ) (t : Tick ℝ) (ht : t = ⟨1, [0], [0], fun _ _ => true, fun _ _ => true⟩) :
    Made realMth exDrop exLyingFig ∧ 1 ≤ exDrop.persistence ∧ OverFloor realMth exDrop exLyingFig exDropBodies 1 1 (1/4) (-1) (-9) 9 ⟨-9, -1⟩ ⟨9, -1⟩ ∧
    (1 : ℝ) * 1 < 1 + 1/4 ∧ (exDrop.figs 0).surface.elasticity * (exDrop.figs 1).surface.elasticity = 0 ∧ exDrop.par.gravity.y = -(1/2) ∧ 0 ≤ realMth.pow exDrop.par.damping 1 ∧
    1/2 * 1 ≤ (1 - realMth.pow exDrop.par.damping 1) * 1 ∧ (exDropBodies (exDrop.figs 0).body).force = ⟨0, 0⟩ ∧ (exDropBodies (exDrop.figs 0).body).idle ≠ exDrop.par.inf ∧
    (-1 : ℝ) + (1 + 1/4) ≤ (exDropBodies (exDrop.figs 0).body).p.y ∧ -1 ≤ (exDropBodies (exDrop.figs 0).body).v.y ∧
    ∀ w, (World.init exDropBodies shapes).run realMth exDrop (twoOps false) = some w →
      Throughout realMth exDrop (fun w => let q := w.bodies (exDrop.figs 0).body; -9 ≤ q.p.x ∧ q.p.x ≤ 9) w [t] ∧ ((w.step realMth exDrop t).bodies (exDrop.figs 0).body).p.y = -3/4 := by
  have hcog : (exDropBodies 0).cog = ⟨0, 0⟩ := rfl
  have h0 : (exDrop.figs 0).body = 0 := rfl
  have h1 : (exDrop.figs 1).body = 1 := rfl
  have b0 : exDropBodies 0 = { Body.blank with m := 2, mInv := 1/2, i := 1, iInv := 1, w := 3, v := ⟨0, -1⟩, p := ⟨3, 1/4⟩, tr := ⟨1, 0, 0, 1, 3, 1/4⟩ } := if_pos rfl
  have b1 : ∀ k, k ≠ 0 → exDropBodies k = { Body.blank with m := 100000, i := 100000, idle := 100000 } := fun k hk => if_neg hk
  have hpow : realMth.pow exDrop.par.damping 1 = 1/2 := Real.rpow_one _
  refine ⟨fun i => ⟨?_, rfl⟩, by norm_num [exDrop], ?_, by norm_num, by norm_num [exDrop], by norm_num [exDrop], by rw [hpow]; norm_num, by rw [hpow]; norm_num, rfl, ?_, ?_, ?_, ?_⟩
  · unfold exLyingFig; split
    · exact ⟨by norm_num, by norm_num [V2.mk.injEq]⟩
    · exact zero_le_one (α := ℝ)
  · constructor
    case ball => simp [exLyingFig, h0, hcog]
    case rod => simp [exLyingFig]
    case apart => simp [h0, h1]
    case rigid =>
      intro k
      by_cases hk : k = 0
      · subst hk; rw [b0]; norm_num [Rigid]
      · rw [b1 k hk]; norm_num [Rigid, Body.blank, Transform.identity]
    case moved => rw [h0, b0]; norm_num [exDrop, Body.blank]
    case placed => rw [h0, b0]; simp [Centred, Transform.apply, Body.blank, V2.zero]
    case unbiased => rfl
    case fixed => rw [h1, b1 1 (by decide)]; exact ⟨rfl, rfl⟩
    case rest => rw [h1, b1 1 (by decide)]; exact ⟨rfl, rfl, rfl, rfl⟩
    case left => rw [h1, b1 1 (by decide)]; norm_num [Transform.apply, Body.blank, Transform.identity]
    case right => rw [h1, b1 1 (by decide)]; norm_num [Transform.apply, Body.blank, Transform.identity]
    case wide => norm_num
    case rate => exact Real.rpow_le_one (by norm_num [exDrop]) (by norm_num [exDrop]) (by norm_num)
    case length => norm_num
    case iterations => norm_num [exDrop]
    case elastic => norm_num [exDrop]
    case friction => norm_num [exDrop]
    case accepts => exact ⟨.inl rfl, ⟨0, by decide, by decide, by decide⟩, ⟨0, by decide, by decide, by decide⟩⟩
    case sensor => exact ⟨rfl, rfl⟩
  · rw [h0, b0]; norm_num [Body.blank, exDrop]
  · rw [h0, b0]; norm_num
  · rw [h0, b0]
  · intro w e
    obtain ⟨w1, -⟩ := put_two realMth exDrop exDropBodies shapes e
    have hp : ((w.step realMth exDrop t).bodies (exDrop.figs 0).body).p = ⟨3, -3/4⟩ := by
      have hs := step_same realMth exDrop t w (by rw [ht]; norm_num) 0
      rw [if_pos (by rw [ht]; exact List.mem_cons_self), w1, b0, ht] at hs
      rw [h0, ht]
      refine (congrArg Body.p hs).trans ?_
      have hz : ∀ q : Body ℝ, (q.updateVelocity exDrop.par.inf exDrop.par.gravity (realMth.pow exDrop.par.damping 1) 1).p = q.p := by
        intro q; unfold Body.updateVelocity; split <;> rfl
      dsimp only
      rw [hz]
      norm_num [Body.updatePosition, Body.setTransform, Body.blank, V2.add, V2.scale, V2.zero]
    refine ⟨⟨?_, ?_⟩, by rw [hp]⟩
    · show -9 ≤ (w.bodies (exDrop.figs 0).body).p.x ∧ (w.bodies (exDrop.figs 0).body).p.x ≤ 9
      rw [w1, h0, b0]; norm_num
    · show -9 ≤ ((w.step realMth exDrop t).bodies (exDrop.figs 0).body).p.x ∧ ((w.step realMth exDrop t).bodies (exDrop.figs 0).body).p.x ≤ 9
      rw [hp]; norm_num

/-- The hypotheses of `C124_floor`: the ball that lies on the ground, in any number of steps. -/
example (shapes : Nat → CShape ℝ) (hs : ∀ i, (shapes i).bb.L ≤ (shapes i).bb.R ∧ (shapes i).bb.B ≤ (shapes i).bb.T) (n : Nat) :
    OverFloor realMth exLying exLyingFig exLyingBodies (1/60) 1 (1/4) (-1) (-9) 9 ⟨-9, -1⟩ ⟨9, -1⟩ ∧ (2 : ℝ) * (1/60) < 1 + 1/4 ∧
    (-1 : ℝ) + (1 + 1/4) - 2 * (1/60) ≤ (exLyingBodies (exLying.figs 0).body).p.y ∧ 0 ≤ (exLyingBodies (exLying.figs 0).body).v.y ∧
    ∀ w, (World.init exLyingBodies shapes).run realMth exLying (twoOps false) = some w →
      Throughout realMth exLying (fun w => let q := w.bodies (exLying.figs 0).body; -9 ≤ q.p.x ∧ q.p.x ≤ 9 ∧ ((-1 : ℝ) + (1 + 1/4) ≤ q.p.y → -2 ≤ q.v.y)) w
        (List.replicate n ⟨1/60, [0], [0], fun _ _ => true, fun _ _ => true⟩) := by
  obtain ⟨hm, hper, hf⟩ := exLying_hyps
  have h0 : (exLying.figs 0).body = 0 := rfl
  have h1 : (exLying.figs 1).body = 1 := rfl
  have b0 : exLyingBodies 0 = { Body.blank with m := 2, mInv := 1/2, i := 1, iInv := 1, p := ⟨3, 7/32⟩, tr := ⟨1, 0, 0, 1, 3, 7/32⟩ } := if_pos rfl
  have b1 : ∀ k, k ≠ 0 → exLyingBodies k = { Body.blank with m := 100000, i := 100000, idle := 100000 } := fun k hk => if_neg hk
  have hfl : OverFloor realMth exLying exLyingFig exLyingBodies (1/60) 1 (1/4) (-1) (-9) 9 ⟨-9, -1⟩ ⟨9, -1⟩ := by
    constructor
    case ball => exact hf.ball
    case rod => exact hf.rod
    case apart => exact hf.apart
    case rigid => intro k; exact (rest_rigid realMth_lawful (hf.rest k)).1
    case moved => rw [h0, b0]; norm_num [exLying, Body.blank]
    case placed => rw [h0, b0]; simp [Centred, Transform.apply, Body.blank, V2.zero]
    case unbiased => rfl
    case fixed => rw [h1, b1 1 (by decide)]; exact ⟨rfl, rfl⟩
    case rest => rw [h1, b1 1 (by decide)]; exact ⟨rfl, rfl, rfl, rfl⟩
    case left => rw [h1, b1 1 (by decide)]; norm_num [Transform.apply, Body.blank, Transform.identity]
    case right => rw [h1, b1 1 (by decide)]; norm_num [Transform.apply, Body.blank, Transform.identity]
    case wide => norm_num
    case rate => exact Real.rpow_le_one (by norm_num [exLying]) (by norm_num [exLying]) (by norm_num)
    case length => norm_num
    case iterations => norm_num [exLying]
    case elastic => norm_num [exLying]
    case friction => norm_num [exLying]
    case accepts => exact hf.accepts
    case sensor => exact hf.sensor
  refine ⟨hfl, by norm_num, by rw [h0, b0]; norm_num, by rw [h0, b0]; norm_num [Body.blank, V2.zero], fun w e => ?_⟩
  have good : ∀ w' : World ℝ, w'.bodies = exLyingBodies → -9 ≤ (w'.bodies (exLying.figs 0).body).p.x ∧ (w'.bodies (exLying.figs 0).body).p.x ≤ 9 ∧
      ((-1 : ℝ) + (1 + 1/4) ≤ (w'.bodies (exLying.figs 0).body).p.y → -2 ≤ (w'.bodies (exLying.figs 0).body).v.y) := by
    intro w' e'
    rw [e', h0, b0]
    norm_num [Body.blank, V2.zero]
  have still : ∀ (m : Nat) (w' : World ℝ), w.run realMth exLying ((List.replicate m (⟨1/60, [0], [0], fun _ _ => true, fun _ _ => true⟩ : Tick ℝ)).map .step) = some w' → w'.bodies = exLyingBodies := by
    intro m w' e'
    obtain ⟨w2, e2, r2⟩ := C119_floor realMth_lawful hm hper exLyingBodies shapes hs hf (List.replicate m (⟨1/60, [0], [0], fun _ _ => true, fun _ _ => true⟩ : Tick ℝ)) (by
      intro t ht
      obtain rfl := List.eq_of_mem_replicate ht
      exact ⟨rfl, rfl, rfl, fun _ _ => rfl, fun _ _ => rfl⟩)
    rw [run_append, show (World.init exLyingBodies shapes).run realMth exLying [.addDyn 0, .addStat 1] = some w from e] at e2
    obtain rfl : w' = w2 := Option.some.inj (e'.symm.trans e2)
    exact r2
  have all : ∀ (n m : Nat) (w' : World ℝ), w.run realMth exLying ((List.replicate m (⟨1/60, [0], [0], fun _ _ => true, fun _ _ => true⟩ : Tick ℝ)).map .step) = some w' →
      Throughout realMth exLying (fun w => let q := w.bodies (exLying.figs 0).body; -9 ≤ q.p.x ∧ q.p.x ≤ 9 ∧ ((-1 : ℝ) + (1 + 1/4) ≤ q.p.y → -2 ≤ q.v.y)) w'
        (List.replicate n ⟨1/60, [0], [0], fun _ _ => true, fun _ _ => true⟩) := by
    intro n
    induction n with
    | zero => exact fun m w' e' => good w' (still m w' e')
    | succ n ih =>
      intro m w' e'
      refine ⟨good w' (still m w' e'), ih (m + 1) _ ?_⟩
      rw [List.replicate_succ', List.map_append, run_append, e']
      rfl
  exact all n 0 w rfl

end Cm
