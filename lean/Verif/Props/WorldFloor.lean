import Verif.Props.WorldRest
/-! # C119: a ball that is put on a level floor stays there -/
set_option linter.unusedSectionVars false
set_option linter.unusedSimpArgs false
set_option linter.unusedVariables false

namespace Cm
open Spec
variable {K : Type} [Field K] [LinearOrder K] [IsStrictOrderedRing K]

/-- A body at rest after the gravity of a step. -/
theorem falling {M : Mth K} {b : Body K} (hb : AtRest M b) {inf : K} (h : b.m ≠ inf ∧ b.idle ≠ inf) (g damping dt : K) :
    b.updateVelocity inf ⟨0, -g⟩ damping dt = { b with v := ⟨0, -(g * dt)⟩ } := by
  obtain ⟨h1, h2, h3, h4, h5, h6, h7⟩ := hb
  have ht : b.type inf ≠ .kinematic := by unfold Body.type; rw [if_neg h.2, if_neg h.1]; decide
  unfold Body.updateVelocity
  rw [if_neg ht]
  cases b
  simp only at h1 h2 h3 h4 h5 h6 h7
  subst h1 h2 h3 h4 h5 h6
  simp [V2.scale, V2.add, V2.zero]

/-- The first push against the fall stops it. -/
theorem stopped {M : Mth K} {a b : Body K} (ha : AtRest M a) (hb : AtRest M b) (hm : 0 < a.mInv) (hfix : b.mInv = 0 ∧ b.iInv = 0) {g dt u : K} (hg : 0 ≤ g * dt) (hu : 0 ≤ u)
    (c : Contact K) (hr : c.r1.x = 0) (h1 : c.bias = 0) (h2 : c.jBias = 0) (h3 : c.bounce = 0) (h4 : c.jnAcc = 0) (h5 : c.jtAcc = 0) (h6 : c.nMass = 1 / a.mInv) :
    Arbiter.contactStep ⟨0, -1⟩ ⟨0, 0⟩ u { a with v := ⟨0, -(g * dt)⟩ } b c = (a, b, { c with jnAcc := g * dt / a.mInv }) := by
  obtain ⟨a1, a2, a3, a4, a5, a6, a7⟩ := ha
  obtain ⟨b1, b2, b3, b4, b5, b6, b7⟩ := hb
  obtain ⟨f1, f2⟩ := hfix
  have hj : 0 ≤ g * dt / a.mInv := div_nonneg hg hm.le
  have hj' : g * dt * a.mInv⁻¹ = g * dt / a.mInv := (div_eq_mul_inv _ _).symm
  have hc : clamp (0 : K) (-(u * (g * dt / a.mInv))) (u * (g * dt / a.mInv)) = 0 := clamp_within (by simpa using mul_nonneg hu hj)
  have hv : -(g * dt) + g * dt / a.mInv * a.mInv = 0 := by field_simp; ring
  have e1 : ∀ r : V2 K, (V2.add (⟨0, 0⟩ : V2 K) (r.perp.scale 0)) = ⟨0, 0⟩ := by intro r; simp [V2.add, V2.scale]
  have e3 : ∀ m : V2 K, ((⟨0, 0⟩ : V2 K).sub ⟨0, 0⟩).dot m = 0 := by intro m; simp [V2.sub, V2.dot]
  have e4 : relativeVelocity { a with v := ⟨0, -(g * dt)⟩ } b c.r1 c.r2 = ⟨0, g * dt⟩ := by
    simp [relativeVelocity, a2, b1, b2, V2.scale, V2.add, V2.sub]
  have e5 : ((⟨0, g * dt⟩ : V2 K).add ⟨0, 0⟩).dot ⟨0, -1⟩ = -(g * dt) := by simp [V2.add, V2.dot]
  have e6 : ((⟨0, g * dt⟩ : V2 K).add ⟨0, 0⟩).dot (V2.perp ⟨0, -1⟩) = 0 := by simp [V2.add, V2.dot, V2.perp]
  simp only [Arbiter.contactStep]
  rw [e4]
  simp only [e5, e6, a3, a4, b3, b4, e1, e3, h1, h2, h3, h4, h5, h6, sub_zero, zero_mul, zero_add, neg_zero, neg_neg, max_self, mul_one_div, max_eq_left hj, hc]
  rw [applyBiasImpulses_none _ _ _ _ _ (by simp [V2.scale])]
  cases a; cases b; cases c
  simp only at a1 a2 a3 a4 a5 a6 a7 b1 b2 b3 b4 b5 b6 b7 f1 f2 hr h1 h2 h3 h4 h5 h6 hv hm
  subst a1 b1 f1 f2
  simp [applyImpulses, V2.rotate, hr, hv, h2, h5]
  exact ⟨a3.symm, a4.symm⟩

/-- One step of the solver for a body at rest that has just come to a fixed one: it stays at rest, and the contact has the impulse that makes up for gravity. -/
theorem landing {M : Mth K} {par : Params K} {prevDT dt g : K} (hdt : 0 < dt) (hg : 0 ≤ g) (hpg : par.gravity = ⟨0, -g⟩) (hit : par.iterations ≠ 0) {bs : Nat → Body K}
    (hr : ∀ k, AtRest M (bs k)) {ia ib : Nat} (hne : ia ≠ ib) (hm : 0 < (bs ia).mInv) (hfix : (bs ib).mInv = 0 ∧ (bs ib).iInv = 0)
    (hdyn : (bs ia).m ≠ par.inf ∧ (bs ia).idle ≠ par.inf) {arb : Arbiter K} {c : Contact K} (h1 : arb.state = .first) (h2 : arb.normal = ⟨0, -1⟩)
    (h3 : arb.surfaceVr = ⟨0, 0⟩) (h4 : 0 ≤ arb.u) (h5 : arb.contacts = [c]) (hc : c.r1.x = 0) (hj : c.jnAcc = 0 ∧ c.jtAcc = 0)
    (hd : -par.slop ≤ -(c.r2.y - c.r1.y + ((bs ib).p.y - (bs ia).p.y))) :
    ∃ c' : Contact K, c'.r1 = c.r1 ∧ c'.r2 = c.r2 ∧ c'.jnAcc = g * dt / (bs ia).mInv ∧ c'.jtAcc = 0 ∧
      (⟨bs, [], []⟩ : SolverState K).step M par prevDT ⟨dt, [ia], [⟨ia, ib, arb⟩]⟩ = ⟨bs, [⟨ia, ib, { arb with contacts := [c'] }⟩], []⟩ := by
  have hpos : (SolverState.positions M [ia] dt (⟨bs, [], []⟩ : SolverState K)) = ⟨bs, [], []⟩ := by
    simp only [SolverState.positions]
    congr 1
    funext k
    split_ifs
    · exact positions_rest (hr k) _
    · rfl
  generalize hq : arb.preStepContact (bs ia) (bs ib) dt par.slop (1 - M.pow par.cbias dt) c = q
  have q1 : q.r1 = c.r1 := by rw [← hq]; rfl
  have q2 : q.r2 = c.r2 := by rw [← hq]; rfl
  have q3 : q.bias = 0 := by
    rw [← hq]
    simp only [Arbiter.preStepContact]
    rw [min_eq_left (by simp only [h2, V2.dot, V2.add, V2.sub]; linarith)]
    simp
  have q4 : q.jBias = 0 := by rw [← hq]; rfl
  have q5 : q.bounce = 0 := by
    rw [← hq]
    simp only [Arbiter.preStepContact, normalRelativeVelocity, relativeVelocity_rest (hr ia) (hr ib)]
    simp [V2.dot]
  have q6 : q.jnAcc = 0 := by rw [← hq]; exact hj.1
  have q7 : q.jtAcc = 0 := by rw [← hq]; exact hj.2
  have q8 : q.nMass = 1 / (bs ia).mInv := by
    rw [← hq]
    simp [Arbiter.preStepContact, kScalar, kScalarBody, hfix.1, hfix.2, V2.cross, h2, hc]
  have hgd : 0 ≤ g * dt := mul_nonneg hg hdt.le
  have hstop := stopped (hr ia) (hr ib) hm hfix hgd h4 q (by rw [q1]; exact hc) q3 q4 q5 q6 q7 q8
  have hrest := contactStep_rest (hr ia) (hr ib) ⟨0, -1⟩ arb.u { q with jnAcc := g * dt / (bs ia).mInv } q3 q4 q5 (div_nonneg hgd hm.le)
    (by show |q.jtAcc| ≤ _; rw [q7]; simpa using mul_nonneg h4 (div_nonneg hgd hm.le))
  refine ⟨{ q with jnAcc := g * dt / (bs ia).mInv }, q1, q2, rfl, q7, ?_⟩
  unfold SolverState.step
  rw [if_neg hdt.ne']
  dsimp only
  rw [hpos, hpg]
  obtain ⟨n, hn⟩ := Nat.exists_eq_succ_of_ne_zero hit
  rw [hn]
  unfold SolverState.solve
  rw [Function.iterate_succ_apply]
  have hpre : (SolverState.preStep M par.inf par.slop par.cbias dt ⟨bs, [⟨ia, ib, arb⟩], []⟩ : SolverState K) = ⟨bs, [⟨ia, ib, { arb with contacts := [q] }⟩], []⟩ := by
    simp only [SolverState.preStep, linkLoop, putPair_back, Arbiter.preStep, h5, List.map_cons, List.map_nil, hq]
  have hvel : (SolverState.velocities M par.inf par.damping ⟨0, -g⟩ [ia] dt ⟨bs, [⟨ia, ib, { arb with contacts := [q] }⟩], []⟩ : SolverState K) =
      ⟨fun k => if k = ia then { bs ia with v := ⟨0, -(g * dt)⟩ } else bs k, [⟨ia, ib, { arb with contacts := [q] }⟩], []⟩ := by
    simp only [SolverState.velocities, List.mem_singleton]
    congr 1
    funext k
    by_cases h : k = ia
    · rw [if_pos h, if_pos h, h, falling (hr ia) hdyn]
    · rw [if_neg h, if_neg h]
  have hcach : ∀ bs' : Nat → Body K, (SolverState.cached prevDT dt ⟨bs', [⟨ia, ib, { arb with contacts := [q] }⟩], []⟩ : SolverState K) =
      ⟨bs', [⟨ia, ib, { arb with contacts := [q] }⟩], []⟩ := by
    intro bs'
    simp only [SolverState.cached, linkLoop, Arbiter.applyCachedImpulse, h1, if_true, putPair_back]
  have hone : (SolverState.iterate M dt ⟨fun k => if k = ia then { bs ia with v := ⟨0, -(g * dt)⟩ } else bs k, [⟨ia, ib, { arb with contacts := [q] }⟩], []⟩ : SolverState K) =
      ⟨bs, [⟨ia, ib, { arb with contacts := [{ q with jnAcc := g * dt / (bs ia).mInv }] }⟩], []⟩ := by
    simp only [SolverState.iterate, linkLoop, Arbiter.applyImpulse, Arbiter.impulseLoop, h2, h3, if_true, if_neg hne.symm, hstop]
    congr 1
    funext k
    unfold putPair
    split_ifs with k1 k2
    · rw [k1]
    · rw [k2]
    · exact if_neg k1
  have hmore : (SolverState.iterate M dt ⟨bs, [⟨ia, ib, { arb with contacts := [{ q with jnAcc := g * dt / (bs ia).mInv }] }⟩], []⟩ : SolverState K) =
      ⟨bs, [⟨ia, ib, { arb with contacts := [{ q with jnAcc := g * dt / (bs ia).mInv }] }⟩], []⟩ := by
    simp only [SolverState.iterate, linkLoop, Arbiter.applyImpulse, Arbiter.impulseLoop, h2, h3, hrest, putPair_back]
  rw [hpre, hvel, hcach, hone]
  exact Function.iterate_fixed hmore n

/-! ## The collision -/

/-- A ball above a level rod. -/
theorem on_level {M : Mth K} (hM : M.Lawful) (c : V2 K) (x y ρ : K) (sg : Segment K) (rot : V2 K) (sw : Bool) (id : Nat) (hl : sg.tb.y = sg.ta.y) (hx : sg.ta.x < sg.tb.x)
    (hx1 : sg.ta.x ≤ x) (hx2 : x ≤ sg.tb.x) (ha : sg.aTangent = ⟨0, 0⟩) (hb : sg.bTangent = ⟨0, 0⟩) (h0 : 0 < y - sg.ta.y) (h1 : y - sg.ta.y < ρ + sg.radius) :
    circleToSegment M ⟨c, ⟨x, y⟩, ρ⟩ sg rot ⟨sw, id, V2.zero, []⟩ = ⟨sw, id, ⟨0, -1⟩, [⟨⟨x, y - ρ⟩, ⟨x, sg.ta.y + sg.radius⟩, 0⟩]⟩ := by
  have hd : 0 < sg.tb.x - sg.ta.x := sub_pos.2 hx
  have ht : (sg.tb.sub sg.ta).dot ((⟨x, y⟩ : V2 K).sub sg.ta) / (sg.tb.sub sg.ta).lengthSq = (x - sg.ta.x) / (sg.tb.x - sg.ta.x) := by
    simp only [V2.dot, V2.sub, V2.lengthSq, hl, sub_self, zero_mul, add_zero, mul_zero]
    field_simp
  have hc : clamp01 ((x - sg.ta.x) / (sg.tb.x - sg.ta.x)) = (x - sg.ta.x) / (sg.tb.x - sg.ta.x) := by
    unfold clamp01
    rw [min_eq_left ((div_le_one hd).2 (by linarith)), max_eq_right (div_nonneg (by linarith) hd.le)]
  have hcl : sg.ta.add ((sg.tb.sub sg.ta).scale ((x - sg.ta.x) / (sg.tb.x - sg.ta.x))) = ⟨x, sg.ta.y⟩ := by
    simp only [V2.add, V2.sub, V2.scale, hl, sub_self, zero_mul, add_zero, V2.mk.injEq, and_true]
    have := mul_div_cancel₀ (x - sg.ta.x) hd.ne'
    linarith
  have hde : (⟨x, sg.ta.y⟩ : V2 K).sub ⟨x, y⟩ = ⟨0, -(y - sg.ta.y)⟩ := by simp [V2.sub]
  have hlen : (⟨0, -(y - sg.ta.y)⟩ : V2 K).lengthSq = (y - sg.ta.y) * (y - sg.ta.y) := by simp only [V2.lengthSq, V2.dot]; ring
  have hsq : M.sqrt ((y - sg.ta.y) * (y - sg.ta.y)) = y - sg.ta.y := root_square hM h0.le rfl
  have hn : (⟨0, -(y - sg.ta.y)⟩ : V2 K).scale (1 / (y - sg.ta.y)) = ⟨0, -1⟩ := by
    simp only [V2.scale, zero_mul, V2.mk.injEq, true_and]
    field_simp
  have hlt : (y - sg.ta.y) * (y - sg.ta.y) < (ρ + sg.radius) * (ρ + sg.radius) := mul_self_lt_mul_self h0.le h1
  have hz : ∀ n : V2 K, n.dot ((⟨0, 0⟩ : V2 K).rotate rot) = 0 := by intro n; simp [V2.dot, V2.rotate]
  unfold circleToSegment
  dsimp only
  rw [ht, hc, hcl, hde, hlen, hsq, if_pos hlt, if_pos h0.ne', hn, ha, hb, hz, if_pos ⟨.inr le_rfl, .inr le_rfl⟩]
  simp [V2.add, V2.scale, sub_eq_add_neg]

namespace Spec
/-- A ball lies on a level floor: shape 0 is a ball about the centre of gravity of its body, shape 1 a rod on an immovable body which is level and below the
centre of the ball; everything is at rest, and the ball and the rod overlap, but by no more than is allowed. The elasticities and frictions may be anything that is
not negative. -/
structure OnFloor (M : Mth K) (sc : Scene K) (fig : Nat → Figure K) (bodies : Nat → Body K) (dt g ρ r : K) (a b : V2 K) : Prop where
  ball : fig 0 = .ball ρ (bodies (sc.figs 0).body).cog
  rod : fig 1 = .rod a b r
  apart : (sc.figs 0).body ≠ (sc.figs 1).body
  rest : ∀ k, AtRest M (bodies k)
  moved : (bodies (sc.figs 0).body).m ≠ sc.par.inf ∧ (bodies (sc.figs 0).body).idle ≠ sc.par.inf ∧ 0 < (bodies (sc.figs 0).body).mInv
  fixed : ∀ k, k ≠ (sc.figs 0).body → (bodies k).mInv = 0 ∧ (bodies k).iInv = 0
  level : ((bodies (sc.figs 1).body).tr.apply b).y = ((bodies (sc.figs 1).body).tr.apply a).y
  left : ((bodies (sc.figs 1).body).tr.apply a).x ≤ (bodies (sc.figs 0).body).p.x
  right : (bodies (sc.figs 0).body).p.x ≤ ((bodies (sc.figs 1).body).tr.apply b).x
  wide : ((bodies (sc.figs 1).body).tr.apply a).x < ((bodies (sc.figs 1).body).tr.apply b).x
  above : 0 < (bodies (sc.figs 0).body).p.y - ((bodies (sc.figs 1).body).tr.apply a).y
  on : (bodies (sc.figs 0).body).p.y - ((bodies (sc.figs 1).body).tr.apply a).y < ρ + r
  depth : ρ + r - sc.par.slop ≤ (bodies (sc.figs 0).body).p.y - ((bodies (sc.figs 1).body).tr.apply a).y
  gravity : sc.par.gravity = ⟨0, -g⟩ ∧ 0 ≤ g
  length : 0 < dt
  iterations : sc.par.iterations ≠ 0
  friction : 0 ≤ (sc.figs 0).surface.friction * (sc.figs 1).surface.friction
  still : (sc.figs 0).surface.velocity = ⟨0, 0⟩ ∧ (sc.figs 1).surface.velocity = ⟨0, 0⟩
  accepts : Accepts (sc.figs 0).filter (sc.figs 1).filter
  sensor : (sc.figs 0).sensor = false ∧ (sc.figs 1).sensor = false
end Spec

theorem rest_rigid {M : Mth K} (hM : M.Lawful) {b : Body K} (h : AtRest M b) : Rigid b.tr ∧ b.tr.apply b.cog = b.p := by
  have hcs := hM.cos_sin b.angle
  rw [h.tr]
  constructor
  · simp only [Body.mkTransform, Transform.transpose, Rigid]
    exact ⟨by linarith, by simp⟩
  · simp only [Body.mkTransform, Transform.transpose, Transform.apply]
    apply V2.ext <;> dsimp only <;> ring

theorem add_keeps (M : Mth K) (sc : Scene K) (w w' : World K) (i : Nat) (h : w.run1 M sc (.addDyn i) = some w' ∨ w.run1 M sc (.addStat i) = some w') :
    w'.bodies = w.bodies ∧ w'.cache = w.cache ∧ w'.joints = w.joints ∧ w'.barred = w.barred := by
  rcases h with h | h
  · obtain ⟨t, -, rfl⟩ := Option.map_eq_some_iff.1 h; exact ⟨rfl, rfl, rfl, rfl⟩
  · obtain ⟨t, -, rfl⟩ := Option.map_eq_some_iff.1 h; exact ⟨rfl, rfl, rfl, rfl⟩

/-- The two shapes are put into an empty space. -/
theorem put_two (M : Mth K) (sc : Scene K) (bodies : Nat → Body K) (shapes : Nat → CShape K) {w : World K}
    (e : (World.init bodies shapes).run M sc [.addDyn 0, .addStat 1] = some w) : w.bodies = bodies ∧ w.cache = [] ∧ w.joints = [] ∧ ∀ x y, w.barred x y = false := by
  simp only [World.run] at e
  cases h1 : (World.init bodies shapes).run1 M sc (.addDyn 0) with
  | none => rw [h1] at e; cases e
  | some w1 =>
    rw [h1] at e
    dsimp only at e
    cases h2 : w1.run1 M sc (.addStat 1) with
    | none => rw [h2] at e; cases e
    | some w2 =>
      rw [h2] at e
      obtain rfl := Option.some.inj e
      obtain ⟨a1, a2, a3, a4⟩ := add_keeps M sc _ _ _ (.inl h1)
      obtain ⟨b1, b2, b3, b4⟩ := add_keeps M sc _ _ _ (.inr h2)
      exact ⟨b1.trans a1, b2.trans a2, b3.trans a3, fun x y => by rw [b4, a4]; rfl⟩

theorem only_pair {found : List (Nat × Nat)} (h1 : found.Pairwise fun p q => ¬ SameTwo p q) (h2 : ∃ p ∈ found, SameTwo p (0, 1)) (h3 : ∀ p ∈ found, SameTwo p (0, 1)) :
    ∃ p, found = [p] ∧ SameTwo p (0, 1) := by
  match found, h1, h2, h3 with
  | [], _, ⟨p, hp, _⟩, _ => cases hp
  | [p], _, _, h3 => exact ⟨p, rfl, h3 p List.mem_cons_self⟩
  | p :: q :: l, h1, _, h3 =>
    exact absurd ((h3 p List.mem_cons_self).trans (SameTwo.symm (h3 q (List.mem_cons_of_mem _ List.mem_cons_self)))) ((List.pairwise_cons.1 h1).1 q List.mem_cons_self)


/-- The first step with a ball on a level floor leaves all where it is. -/
theorem floor_first {M : Mth K} (hM : M.Lawful) {sc : Scene K} {fig : Nat → Figure K} (hm : Made M sc fig) (hper : 1 ≤ sc.persistence) (bodies : Nat → Body K)
    (shapes : Nat → CShape K) (hs : ∀ i, (shapes i).bb.L ≤ (shapes i).bb.R ∧ (shapes i).bb.B ≤ (shapes i).bb.T) {dt g ρ r : K} {a b : V2 K}
    (h : OnFloor M sc fig bodies dt g ρ r a b) (ro : Roster) (hr : rosterAfter (fun _ => none) ([.addDyn 0, .addStat 1] : List (WorldOp K)) = ro) :
    WLegal sc (fun _ => none) ([.addDyn 0, .addStat 1] : List (WorldOp K)) ∧ AllEasy sc fig ro ∧
    ∃ w, (World.init bodies shapes).run M sc [.addDyn 0, .addStat 1] = some w ∧ w.bodies = bodies ∧ (Upright sc ro w ∧ Filed w ∧ Unrefused w) ∧ Uneven sc fig ro w ∧
      ∀ t : Tick K, t.dt = dt ∧ t.dyn = [(sc.figs 0).body] ∧ t.order = [0] ∧ Accepting t → WOk sc ro (.step t) ∧ (w.step M sc t).bodies = w.bodies ∧
        Equilibrium M sc.par dt [(sc.figs 0).body] w.bodies (aging ((w.step M sc t).solver sc).arbs) (w.step M sc t).joints := by
  classical
  have hro : ∀ i, ro i = if i = 1 then some false else if i = 0 then some true else none := by
    intro i; rw [← hr]; simp only [rosterAfter, List.foldl, rosterStep, Roster.set]
  have hro1 : ∀ i, ro i ≠ none → i = 0 ∨ i = 1 := by
    intro i hi; rw [hro] at hi
    by_cases h1 : i = 1
    · exact .inr h1
    · by_cases h0 : i = 0
      · exact .inl h0
      · rw [if_neg h1, if_neg h0] at hi; exact absurd rfl hi
  have hl : WLegal sc (fun _ => none) ([.addDyn 0, .addStat 1] : List (WorldOp K)) := by
    refine ⟨rfl, ?_, trivial⟩
    simp [WOk, rosterStep, Roster.set]
  have heasy : AllEasy sc fig ro := by
    intro i j hi hj hd hbo
    rcases hro1 i hi with rfl | rfl <;> rcases hro1 j hj with rfl | rfl
    · exact absurd rfl hbo
    · rw [h.ball, h.rod]; exact trivial
    · rw [h.ball, h.rod]; exact trivial
    · exact absurd rfl hbo
  have hok : ∀ t : Tick K, t.dt = dt ∧ t.dyn = [(sc.figs 0).body] ∧ t.order = [0] ∧ Accepting t → WOk sc ro (.step t) := by
    intro t m
    obtain ⟨-, t2, t3, -⟩ := m
    refine ⟨by rw [t3]; simp, fun i => ?_, fun j hj => ?_⟩
    · rw [t3, hro]
      by_cases h1 : i = 1
      · subst h1; simp
      · by_cases h0 : i = 0
        · subst h0; simp
        · simp [h1, h0]
    · rw [t2, List.mem_singleton]
      rcases hro1 j (by rw [hj]; simp) with rfl | rfl
      · rw [hro] at hj; simp at hj
      · exact h.apart.symm
  obtain ⟨w, e, hu, hf⟩ := run_filed hM hm hper _ _ _ (init_upright sc bodies shapes (fun k => (rest_rigid hM (h.rest k)).1) hs)
    ⟨List.Pairwise.nil, List.Pairwise.nil, (fun p hp => by cases hp)⟩ hl
  rw [hr] at hu
  obtain ⟨w1, w2, w3, w4⟩ := put_two M sc bodies shapes e
  have hunr : Unrefused w := by intro x hx; rw [w2] at hx; cases hx
  refine ⟨hl, heasy, w, e, w1, ⟨hu, hf, hunr⟩, fun i j hi hj hne => ?_, fun t ht => ?_⟩
  · rcases hro1 i hi with rfl | rfl <;> rcases hro1 j hj with rfl | rfl
    · exact absurd rfl hne
    · rw [h.ball, h.rod]; exact trivial
    · rw [h.ball, h.rod]; exact trivial
    · exact absurd rfl hne
  · obtain ⟨t1, t2, t3, t4⟩ := ht
    have t5 := hok t ⟨t1, t2, t3, t4⟩
    have h0 : t.dt ≠ 0 := by rw [t1]; exact h.length.ne'
    have hrest : ∀ k, AtRest M (w.bodies k) := by rw [w1]; exact h.rest
    have hbeg := begun_rest (sc := sc) (inp := t) hrest
    rw [w1] at hbeg
    have hc := calls_apart hM hm hu t t5
    -- the one collision
    obtain ⟨fd, fd1, fd2, fd3⟩ := step_exact hM hm hu t t5 h0 (finds_detects hM hm hu t t5 (.inl heasy))
    obtain ⟨-, -, g3, g4, g5⟩ := step_frame M sc t w h0
    obtain ⟨hbu, hcur⟩ := begun_upright hM hm hu t t5
    have hcen := (rest_rigid hM (h.rest (sc.figs 0).body)).2
    have hcoll : Colliding sc fig ro (w.step M sc t) 0 1 := by
      refine ⟨by decide, by rw [hro]; simp, by rw [hro]; simp, .inl (by rw [hro]; simp), h.apart, h.accepts, by rw [g3, w4], ?_⟩
      have htr : ∀ k, ((w.step M sc t).bodies k).tr = (bodies k).tr := fun k => by rw [(g5 k).2.2.2, hbeg]
      rw [htr, htr, h.ball, h.rod]
      have hd : 0 < ((bodies (sc.figs 1).body).tr.apply b).x - ((bodies (sc.figs 1).body).tr.apply a).x := sub_pos.2 h.wide
      refine ⟨_, At a b (((bodies (sc.figs 0).body).p.x - ((bodies (sc.figs 1).body).tr.apply a).x) /
        (((bodies (sc.figs 1).body).tr.apply b).x - ((bodies (sc.figs 1).body).tr.apply a).x)), rfl, ⟨_, div_nonneg (by linarith [h.left]) hd.le, (div_le_one hd).2 (by linarith [h.right]), rfl⟩, ?_⟩
      have hq : (bodies (sc.figs 1).body).tr.apply (At a b (((bodies (sc.figs 0).body).p.x - ((bodies (sc.figs 1).body).tr.apply a).x) /
          (((bodies (sc.figs 1).body).tr.apply b).x - ((bodies (sc.figs 1).body).tr.apply a).x))) = ⟨(bodies (sc.figs 0).body).p.x, ((bodies (sc.figs 1).body).tr.apply a).y⟩ := by
        rw [apply_at]
        have := div_mul_cancel₀ ((bodies (sc.figs 0).body).p.x - ((bodies (sc.figs 1).body).tr.apply a).x) hd.ne'
        apply V2.ext
        · show _ + _ * _ = _
          rw [this]; ring
        · show _ + _ * (_ - _) = _
          rw [h.level]; ring
      have hlt : dist2 ((bodies (sc.figs 0).body).tr.apply (bodies (sc.figs 0).body).cog) ⟨(bodies (sc.figs 0).body).p.x, ((bodies (sc.figs 1).body).tr.apply a).y⟩ < (ρ + r) * (ρ + r) := by
        rw [hcen]
        have := mul_self_lt_mul_self h.above.le h.on
        simp only [dist2]
        linarith [this, sq ((bodies (sc.figs 0).body).p.y - ((bodies (sc.figs 1).body).tr.apply a).y), sub_self (bodies (sc.figs 0).body).p.x,
          sq_eq_zero_iff.2 (sub_self (bodies (sc.figs 0).body).p.x)]
      rw [hq]
      exact ⟨hlt.le, fun _ => hlt⟩
    obtain ⟨p, rfl, hp⟩ := only_pair fd1 ((fd2 0 1).2 hcoll) (fun p hp => by
      obtain ⟨c1, c2, c3, -⟩ := (fd2 p.1 p.2).1 ⟨p, hp, .inl rfl⟩
      obtain ⟨i, j⟩ := p
      rcases hro1 i c2 with rfl | rfl <;> rcases hro1 j c3 with rfl | rfl
      · exact absurd rfl c1
      · exact .inl rfl
      · exact .inr rfl
      · exact absurd rfl c1)
    have hwant : Wanted sc t w p := by
      rw [wanted_iff t4 hunr, w1]
      have hmass : ¬ ((bodies (sc.figs 0).body).m = sc.par.inf ∧ (bodies (sc.figs 1).body).m = sc.par.inf) := fun hh => h.moved.1 hh.1
      rcases hp with rfl | rfl
      · exact ⟨h.sensor.1, h.sensor.2, hmass⟩
      · exact ⟨h.sensor.2, h.sensor.1, fun hh => hmass ⟨hh.2, hh.1⟩⟩
    have hact : (w.step M sc t).active = [p] := by rw [fd3]; simp [hwant]
    have hact' : (w.found M sc t).active = [p] := by rw [← g4]; exact hact
    obtain ⟨info, p', hp', hhit, eab, harb⟩ := found_call M sc hper t w hf.one hc p (by rw [hact']; exact List.mem_cons_self)
    obtain ⟨ne1, nb1, id, col⟩ := hit_collide hbu.proper hhit
    obtain ⟨-, q1, q2, q3⟩ := (calls_exact hM hm hu t t5 h0 (finds_detects hM hm hu t t5 (.inl heasy))).2.1 p' hp'
    rw [hcur _ q1, hcur _ q2, (hm _).2, (hm _).2, hbeg] at col
    have hlev : ∀ sw id, circleToSegment M ⟨(bodies (sc.figs 0).body).cog, (bodies (sc.figs 0).body).tr.apply (bodies (sc.figs 0).body).cog, ρ⟩
        ((Segment.new M a b r).cache (bodies (sc.figs 1).body).tr).1 ⟨(bodies (sc.figs 1).body).tr.a, (bodies (sc.figs 1).body).tr.b⟩ ⟨sw, id, V2.zero, []⟩ =
        ⟨sw, id, ⟨0, -1⟩, [⟨⟨(bodies (sc.figs 0).body).p.x, (bodies (sc.figs 0).body).p.y - ρ⟩,
          ⟨(bodies (sc.figs 0).body).p.x, ((bodies (sc.figs 1).body).tr.apply a).y + r⟩, 0⟩]⟩ := by
      intro sw id
      rw [hcen]
      exact on_level hM _ _ _ ρ _ _ sw id h.level h.wide h.left h.right rfl rfl h.above h.on
    have hinfo : p = (0, 1) ∧ info.n = ⟨0, -1⟩ ∧ info.contacts = [⟨⟨(bodies (sc.figs 0).body).p.x, (bodies (sc.figs 0).body).p.y - ρ⟩,
          ⟨(bodies (sc.figs 0).body).p.x, ((bodies (sc.figs 1).body).tr.apply a).y + r⟩, 0⟩] := by
      obtain ⟨i, j⟩ := p'
      rcases hro1 i q1 with rfl | rfl <;> rcases hro1 j q2 with rfl | rfl
      · exact absurd rfl nb1
      · rw [h.ball, h.rod, ball_rod, hlev] at col
        obtain rfl := Option.some.inj col
        exact ⟨eab, rfl, rfl⟩
      · rw [h.ball, h.rod, rod_ball, hlev] at col
        obtain rfl := Option.some.inj col
        exact ⟨eab, rfl, rfl⟩
      · exact absurd rfl nb1
    obtain ⟨rfl, hn, hcon⟩ := hinfo
    rw [updated_accepting t4, hbeg, hcon, hn] at harb
    have hblank : heldArb (w.begun M sc t).cache 0 1 = Arbiter.blank := by
      show heldArb w.aged 0 1 = _
      unfold World.aged
      rw [w2]
      rfl
    rw [hblank] at harb
    have hcols : collisions M sc t w = [⟨(sc.figs 0).body, (sc.figs 1).body, heldArb ((w.found M sc t).swept sc).cache 0 1⟩] := by
      show ((w.found M sc t).active.map _) = _
      rw [hact']
      rfl
    obtain ⟨c, hc1, hc2, hc3, hc4, hc5⟩ : ∃ c : Contact K, (heldArb ((w.found M sc t).swept sc).cache 0 1).contacts = [c] ∧ c.r1 = ⟨0, -ρ⟩ ∧
        c.r2 = V2.sub ⟨(bodies (sc.figs 0).body).p.x, ((bodies (sc.figs 1).body).tr.apply a).y + r⟩ (bodies (sc.figs 1).body).p ∧ c.jnAcc = 0 ∧ c.jtAcc = 0 := by
      rw [harb]
      exact ⟨_, rfl, by simp [refreshContact, copyOld, Pushed.contact, Arbiter.blank, V2.sub], rfl, rfl, rfl⟩
    have hst : (heldArb ((w.found M sc t).swept sc).cache 0 1).state = .first := by rw [harb]; rfl
    have hno : (heldArb ((w.found M sc t).swept sc).cache 0 1).normal = ⟨0, -1⟩ := by rw [harb]; rfl
    have hvr : (heldArb ((w.found M sc t).swept sc).cache 0 1).surfaceVr = ⟨0, 0⟩ := by
      rw [harb]; simp [Arbiter.update, h.still.1, h.still.2, V2.sub, V2.scale, V2.dot]
    have hfr : 0 ≤ (heldArb ((w.found M sc t).swept sc).cache 0 1).u := by rw [harb]; exact h.friction
    clear harb
    generalize heldArb ((w.found M sc t).swept sc).cache 0 1 = arb at *
    have hsol := step_solver M sc hper t w h0 hf.one hc
    rw [hcols, t1, t2, w1, w3] at hsol
    have hdep : -sc.par.slop ≤ -(c.r2.y - c.r1.y + ((bodies (sc.figs 1).body).p.y - (bodies (sc.figs 0).body).p.y)) := by
      rw [hc2, hc3]
      simp only [V2.sub]
      linarith [h.depth]
    obtain ⟨c', k1, k2, k3, k4, k5⟩ := landing (M := M) (par := sc.par) (prevDT := w.prevDT) (bs := bodies) (g := g) h.length h.gravity.2 h.gravity.1 h.iterations h.rest h.apart h.moved.2.2
      (h.fixed _ h.apart.symm) ⟨h.moved.1, h.moved.2.1⟩ hst hno hvr hfr hc1 (by rw [hc2]) ⟨hc4, hc5⟩ hdep
    rw [k5] at hsol
    have hbod : (w.step M sc t).bodies = bodies := congrArg SolverState.bodies hsol
    have hjoi : (w.step M sc t).joints = [] := congrArg SolverState.joints hsol
    have hj : 0 ≤ g * dt / (bodies (sc.figs 0).body).mInv := div_nonneg (mul_nonneg h.gravity.2 h.length.le) h.moved.2.2.le
    refine ⟨t5, hbod.trans w1.symm, ?_⟩
    rw [hsol, hjoi, w1]
    refine ⟨h.rest, fun k hk => ?_, fun k hk => ?_, fun l hl => ?_, fun l hl => ?_, fun l hl => ?_, fun l hl => ?_, fun k hk => ?_⟩
    · rw [List.mem_singleton] at hk; subst hk; exact ⟨h.moved.1, h.moved.2.1⟩
    · rw [List.mem_singleton] at hk; exact h.fixed k hk
    · simp only [aging, List.map_cons, List.map_nil, List.mem_singleton] at hl; subst hl; exact h.apart
    · cases hl
    · simp only [aging, List.map_cons, List.map_nil, List.mem_singleton] at hl
      subst hl
      refine ⟨by simp, hvr, fun d hd => ?_, fun d hd => ?_, fun d hd => ?_⟩
      · rw [List.mem_singleton.1 hd, k3]; exact hj
      · rw [List.mem_singleton.1 hd, k3, k4]; simpa using mul_nonneg hfr hj
      · rw [List.mem_singleton.1 hd, k1, k2]
        dsimp only
        rw [hno]
        linarith [hdep]
    · cases hl
    · rw [List.mem_singleton] at hk
      subst hk
      have hm := h.moved.2.2.ne'
      have e1 := h.apart.symm
      simp only [aging, List.map_cons, List.map_nil, List.flatMap_cons, List.flatMap_nil, List.append_nil, contactPushes, pushes, sumX, sumY, sumSpin, List.sum_cons, List.sum_nil,
        if_true, if_neg e1, k1, k3, k4, hc2, hno, h.gravity.1]
      refine ⟨by ring, ?_, by ring⟩
      field_simp
      ring

/-- **C119.** A ball that is put on a level floor stays there: after any number of steps of any one length the bodies are exactly where they were put. -/
theorem C119_floor {M : Mth K} (hM : M.Lawful) {sc : Scene K} {fig : Nat → Figure K} (hm : Made M sc fig) (hper : 1 ≤ sc.persistence) (bodies : Nat → Body K)
    (shapes : Nat → CShape K) (hs : ∀ i, (shapes i).bb.L ≤ (shapes i).bb.R ∧ (shapes i).bb.B ≤ (shapes i).bb.T) {dt g ρ r : K} {a b : V2 K}
    (h : OnFloor M sc fig bodies dt g ρ r a b) (ticks : List (Tick K)) (ht : ∀ t ∈ ticks, t.dt = dt ∧ t.dyn = [(sc.figs 0).body] ∧ t.order = [0] ∧ Accepting t) :
    ∃ w, (World.init bodies shapes).run M sc ([.addDyn 0, .addStat 1] ++ ticks.map .step) = some w ∧ w.bodies = bodies := by
  obtain ⟨hl, he, w2, e2, w1, ⟨-, -, hunr⟩, hun, hf⟩ := floor_first hM hm hper bodies shapes hs h _ rfl
  obtain ⟨w, e, hset⟩ := C119_settled hM hm hper bodies shapes (fun k => (rest_rigid hM (h.rest k)).1) hs _ hl he
  obtain rfl : w = w2 := Option.some.inj (e.symm.trans e2)
  rw [run_append, e]
  show ∃ w', w.run M sc (ticks.map .step) = some w' ∧ w'.bodies = bodies
  cases ticks with
  | nil => exact ⟨w, rfl, w1⟩
  | cons t ticks =>
    obtain ⟨-, f2, f3⟩ := hf t (ht t List.mem_cons_self)
    refine Exists.imp (fun w' z => ⟨z.1, z.2.trans w1⟩) (hset dt [(sc.figs 0).body] t ticks h.length.ne' hunr hun (fun x hx => ?_) (by rw [w1]; exact h.rest) f2 f3)
    obtain ⟨x1, x2, x3, x4⟩ := ht x hx
    exact ⟨x1, x2, x4, (hf x ⟨x1, x2, x3, x4⟩).1⟩

/-- A ball of radius 1 whose centre is 31/32 above the ground. -/
noncomputable def exLyingFig (i : Nat) : Figure ℝ := if i = 1 then .rod ⟨-9, -1⟩ ⟨9, -1⟩ (1/4) else .ball 1 ⟨0, 0⟩
noncomputable def exLying : Scene ℝ :=
  ⟨fun i => ⟨(exLyingFig i).made realMth, i % 2, ⟨0#64, 1#64, 1#64⟩, ⟨1, 1/2, ⟨0, 0⟩⟩, false, BitVec.ofNat 64 i⟩, ⟨100000, 1/10, 1/2, 1, ⟨0, -10⟩, 2⟩, 1/1000, 3,
    fun _ _ => false⟩
noncomputable def exLyingBodies (k : Nat) : Body ℝ :=
  if k = 0 then { Body.blank with m := 2, mInv := 1/2, i := 1, iInv := 1, p := ⟨3, 7/32⟩, tr := ⟨1, 0, 0, 1, 3, 7/32⟩ }
  else { Body.blank with m := 100000, i := 100000, idle := 100000 }

/-- The hypotheses of `C119_floor`. -/
theorem exLying_hyps : Made realMth exLying exLyingFig ∧ 1 ≤ exLying.persistence ∧ OnFloor realMth exLying exLyingFig exLyingBodies (1/60) 10 1 (1/4) ⟨-9, -1⟩ ⟨9, -1⟩ := by
  have hc : realMth.cos 0 = 1 ∧ realMth.sin 0 = 0 := ⟨Real.cos_zero, Real.sin_zero⟩
  have hcog : (exLyingBodies 0).cog = ⟨0, 0⟩ := rfl
  have h0 : (exLying.figs 0).body = 0 := rfl
  have h1 : (exLying.figs 1).body = 1 := rfl
  have b0 : exLyingBodies 0 = { Body.blank with m := 2, mInv := 1/2, i := 1, iInv := 1, p := ⟨3, 7/32⟩, tr := ⟨1, 0, 0, 1, 3, 7/32⟩ } := if_pos rfl
  have b1 : ∀ k, k ≠ 0 → exLyingBodies k = { Body.blank with m := 100000, i := 100000, idle := 100000 } := fun k hk => if_neg hk
  refine ⟨fun i => ⟨?_, rfl⟩, by norm_num [exLying], ?_⟩
  · unfold exLyingFig; split
    · exact ⟨by norm_num, by norm_num [V2.mk.injEq]⟩
    · exact zero_le_one (α := ℝ)
  · constructor
    case ball => simp [exLyingFig, h0, hcog]
    case rod => simp [exLyingFig]
    case apart => simp [h0, h1]
    case rest =>
      intro k
      by_cases hk : k = 0
      · subst hk
        rw [b0]
        constructor <;> simp [Body.blank, V2.zero, Body.mkTransform, Transform.transpose, hc]
      · rw [b1 k hk]
        constructor <;> simp [Body.blank, V2.zero, Body.mkTransform, Transform.transpose, hc, Transform.identity]
    case moved => rw [h0, b0]; norm_num [exLying, Body.blank]
    case fixed => intro k hk; rw [h0] at hk; rw [b1 k hk]; exact ⟨rfl, rfl⟩
    case level => rw [h1, b1 1 (by decide)]; norm_num [Transform.apply, Body.blank, Transform.identity]
    case left => rw [h0, h1, b0, b1 1 (by decide)]; norm_num [Transform.apply, Body.blank, Transform.identity]
    case right => rw [h0, h1, b0, b1 1 (by decide)]; norm_num [Transform.apply, Body.blank, Transform.identity]
    case wide => rw [h1, b1 1 (by decide)]; norm_num [Transform.apply, Body.blank, Transform.identity]
    case above => rw [h0, h1, b0, b1 1 (by decide)]; norm_num [Transform.apply, Body.blank, Transform.identity]
    case on => rw [h0, h1, b0, b1 1 (by decide)]; norm_num [Transform.apply, Body.blank, Transform.identity]
    case depth => rw [h0, h1, b0, b1 1 (by decide)]; norm_num [Transform.apply, Body.blank, Transform.identity, exLying]
    case gravity => norm_num [exLying]
    case length => norm_num
    case iterations => norm_num [exLying]
    case friction => norm_num [exLying]
    case still => exact ⟨rfl, rfl⟩
    case accepts => exact ⟨.inl rfl, ⟨0, by decide, by decide, by decide⟩, ⟨0, by decide, by decide, by decide⟩⟩
    case sensor => exact ⟨rfl, rfl⟩

/-- The hypotheses of `C119_settled`, for the step `first`, and those of `C119_heap` after it, for the step `second`. -/
example (shapes : Nat → CShape ℝ) (hs : ∀ i, (shapes i).bb.L ≤ (shapes i).bb.R ∧ (shapes i).bb.B ≤ (shapes i).bb.T) (first second : Tick ℝ)
    (h1 : first = ⟨1/60, [0], [0], fun _ _ => true, fun _ _ => true⟩) (h2 : second = ⟨1/60, [0], [0], fun _ _ => true, fun _ _ => true⟩) :
    let r := rosterAfter (fun _ => none) ([.addDyn 0, .addStat 1] : List (WorldOp ℝ))
    ∃ w, (World.init exLyingBodies shapes).run realMth exLying [.addDyn 0, .addStat 1] = some w ∧ Unrefused w ∧ Uneven exLying exLyingFig r w ∧
      (∀ k, AtRest realMth (w.bodies k)) ∧ (w.step realMth exLying first).bodies = w.bodies ∧
      Equilibrium realMth exLying.par (1/60) [0] w.bodies (aging ((w.step realMth exLying first).solver exLying).arbs) (w.step realMth exLying first).joints ∧
      (w.step realMth exLying first).prevDT = 1/60 ∧ Unrefused (w.step realMth exLying first) ∧ Uneven exLying exLyingFig r (w.step realMth exLying first) ∧
      Equilibrium realMth exLying.par (1/60) [0] (w.step realMth exLying first).bodies (collisions realMth exLying second (w.step realMth exLying first)) (w.step realMth exLying first).joints := by
  intro r
  obtain ⟨hm, hper, hf⟩ := exLying_hyps
  obtain ⟨-, he, w, e, w1, hw, hun, H⟩ := floor_first realMth_lawful hm hper exLyingBodies shapes hs hf r rfl
  have ok : ∀ t : Tick ℝ, t = ⟨1/60, [0], [0], fun _ _ => true, fun _ _ => true⟩ → t.dt = 1/60 ∧ t.dyn = [(exLying.figs 0).body] ∧ t.order = [0] ∧ Accepting t := by
    rintro t rfl; exact ⟨rfl, rfl, rfl, fun _ _ => rfl, fun _ _ => rfl⟩
  obtain ⟨k1, k2, k3⟩ := H first (ok first h1)
  have hr : ∀ k, AtRest realMth (w.bodies k) := by rw [w1]; exact hf.rest
  obtain ⟨o1, o2, -, o4⟩ := ok first h1
  obtain ⟨z1, z2⟩ := rest_next realMth_lawful hm hper he hf.length.ne' hw hun ⟨o1, o2, o4, k1⟩ hr k2 k3
  obtain ⟨p1, p2, -, p4⟩ := ok second h2
  exact ⟨w, e, hw.2.2, hun, hr, k2, k3, z1.prev, z1.unrefused, by unfold Uneven; rw [k2]; exact hun, z2 second ⟨p1, p2, p4, (H second (ok second h2)).1⟩⟩

end Cm
