import Verif.Props.Heaps
import Verif.Props.Bounce
/-! # C151: swarms of balls -/
set_option linter.unusedSectionVars false
set_option linter.unusedSimpArgs false
set_option linter.unusedVariables false

namespace Cm
open Spec Descent BBTree
variable {K : Type} [Field K] [LinearOrder K] [IsStrictOrderedRing K]

namespace Spec
/-- The same scene, with another number of iterations. -/
def iterating (sc : Scene K) (n : Nat) : Scene K := { sc with par := { sc.par with iterations := n } }

/-- The bodies of a simulation when a step looks for collisions. -/
def movedBodies (M : Mth K) (inp : Tick K) (w : World K) (k : Nat) : Body K := if k ∈ inp.dyn then (w.bodies k).updatePosition M inp.dt else w.bodies k

/-- All shapes are balls about the centres of gravity of their bodies; no two bodies are at the same place when a step has moved them, and one that cannot be pushed is at `o`. -/
structure Swarm (M : Mth K) (sc : Scene K) (fig : Nat → Figure K) (r : Roster) (inp : Tick K) (o : V2 K) (w : World K) : Prop where
  ball : ∀ i, r i ≠ none → ∃ ρ, fig i = .ball ρ (w.bodies (sc.figs i).body).cog ∧ Centred (w.bodies (sc.figs i).body)
  apart : ∀ i j, r i ≠ none → r j ≠ none → (sc.figs i).body ≠ (sc.figs j).body → (movedBodies M inp w (sc.figs i).body).p ≠ (movedBodies M inp w (sc.figs j).body).p
  planet : ∀ i, r i ≠ none → (w.bodies (sc.figs i).body).mInv = 0 → (movedBodies M inp w (sc.figs i).body).p = o
end Spec

theorem iterating_collisions (M : Mth K) (sc : Scene K) (inp : Tick K) (w : World K) (n : Nat) : collisions M (iterating sc n) inp w = collisions M sc inp w := rfl

theorem step_iterating (M : Mth K) (sc : Scene K) (inp : Tick K) (w : World K) (h0 : inp.dt ≠ 0) (n : Nat) :
    (w.step M (iterating sc n) inp).bodies = (SolverState.solve M sc.par.inf sc.par.slop sc.par.cbias sc.par.damping sc.par.gravity inp.dyn w.prevDT inp.dt n
      ⟨movedBodies M inp w, collisions M sc inp w, w.joints⟩).bodies := by
  rw [(C111_step M (iterating sc n) inp w ⟨w.bodies, [], w.joints⟩ rfl rfl).1]
  simp only [SolverState.step, if_neg h0]
  rfl

theorem movedBodies_mass (M : Mth K) (inp : Tick K) (w : World K) (k : Nat) : (movedBodies M inp w k).mInv = (w.bodies k).mInv ∧ (movedBodies M inp w k).iInv = (w.bodies k).iInv := by
  simp only [movedBodies]
  split_ifs <;> exact ⟨rfl, rfl⟩

/-- **C151**. In a whole step of a simulation, with any joints, friction and history: if the collisions it finds are those of a heap on open ground, the corrections of overlaps
settle as the number of iterations grows, and they correct every overlap at least as fast as it asks for. -/
theorem C151_step [Archimedean K] (M : Mth K) (sc : Scene K) (inp : Tick K) (w : World K) (h0 : inp.dt ≠ 0)
    (hm : ∀ k, 0 ≤ (w.bodies k).mInv ∧ 0 ≤ (w.bodies k).iInv) (hf : ∀ l ∈ collisions M sc inp w, Pushable (movedBodies M inp w) l)
    (o : V2 K) (ho : ∀ l ∈ collisions M sc inp w, Opens (movedBodies M inp w) o l) :
    ∃ u, Parts .corrections (prepared M sc.par.inf sc.par.slop sc.par.cbias sc.par.damping sc.par.gravity inp.dyn w.prevDT inp.dt
        ⟨movedBodies M inp w, collisions M sc inp w, w.joints⟩) u ∧
      ∀ ε > 0, ∃ n0, ∀ n ≥ n0, ∀ k, FlowNear ε (Channel.corrections.flow ((w.step M (iterating sc n) inp).bodies k)) (u k) := by
  obtain ⟨u, hu, h⟩ := C149_overlaps M sc.par.inf sc.par.slop sc.par.cbias sc.par.damping sc.par.gravity inp.dyn w.prevDT inp.dt
    ⟨movedBodies M inp w, collisions M sc inp w, w.joints⟩ (fun k => by
      show 0 ≤ (movedBodies M inp w k).mInv ∧ 0 ≤ (movedBodies M inp w k).iInv
      rw [(movedBodies_mass M inp w k).1, (movedBodies_mass M inp w k).2]
      exact hm k) hf o ho
  refine ⟨u, hu, fun ε hε => ?_⟩
  obtain ⟨n0, hn⟩ := h ε hε
  refine ⟨n0, fun n hn0 k => ?_⟩
  rw [step_iterating M sc inp w h0]
  exact hn n hn0 k

/-- The broad phase reports shapes of the simulation only. -/
theorem calls_present {M : Mth K} (hM : M.Lawful) {sc : Scene K} {fig : Nat → Figure K} (hm : Made M sc fig) {r : Roster} {w : World K} (h : Upright sc r w)
    (inp : Tick K) (ho : WOk sc r (.step inp)) : ∀ p ∈ w.calls M sc inp, r p.1 ≠ none ∧ r p.2 ≠ none := by
  classical
  obtain ⟨hb, -⟩ := begun_upright hM hm h inp ho
  obtain ⟨m, hr, hm1, hm2⟩ := h.index
  have hleg : Legal m (.reindexQuery inp.order (fun i => ((w.begun M sc inp).shapes i).bb) fun i => ((w.begun M sc inp).bodies (sc.figs i).body).v) := by
    refine ⟨hb.proper, ho.1, fun i => ?_⟩
    rw [ho.2.1, ← hm1]
    cases m i with
    | none => simp
    | some x => obtain ⟨b, bb⟩ := x; simp
  obtain ⟨-, c2, -, -⟩ := rel_calls hr hleg
  have some_of : ∀ i, (m i).isSome → r i ≠ none := by
    intro i; rw [← hm1]
    cases m i <;> simp
  intro p hp
  obtain ⟨-, n2, n3, -⟩ := c2 p.1 p.2 hp
  exact ⟨some_of _ n2, some_of _ n3⟩

/-- The collisions of a swarm are those of a heap. -/
theorem swarm_opens {M : Mth K} (hM : M.Lawful) {sc : Scene K} {fig : Nat → Figure K} (hm : Made M sc fig) (hper : 1 ≤ sc.persistence) {r : Roster} {w : World K}
    (hu : Upright sc r w) (hf : Filed w) {inp : Tick K} (ho : WOk sc r (.step inp)) {o : V2 K} (hs : Swarm M sc fig r inp o w) (hmass : ∀ k, 0 ≤ (w.bodies k).mInv) :
    ∀ l ∈ collisions M sc inp w, Pushable (movedBodies M inp w) l ∧ Opens (movedBodies M inp w) o l ∧ ((∀ i, (sc.figs i).surface.friction = 0) → l.it.u = 0) ∧
      l.it.surfaceVr.dot l.it.normal = 0 := by
  have hcol : collisions M sc inp w = (w.found M sc inp).active.map fun p => ⟨(sc.figs p.1).body, (sc.figs p.2).body, heldArb ((w.found M sc inp).swept sc).cache p.1 p.2⟩ := rfl
  have hc := calls_apart hM hm hu inp ho
  obtain ⟨hbu, hcur⟩ := begun_upright hM hm hu inp ho
  intro l hl
  rw [hcol] at hl
  obtain ⟨ab, hab, rfl⟩ := List.mem_map.1 hl
  obtain ⟨info, ⟨i, j⟩, hp, hhit, hpair, harb⟩ := found_call M sc hper inp w hf.one hc ab hab
  obtain ⟨ri, rj⟩ := calls_present hM hm hu inp ho _ hp
  obtain ⟨hne, hbod, id, hco⟩ := hit_collide hbu.proper hhit
  dsimp only at ri rj hbod hco
  obtain ⟨ρ, fi, pi⟩ := hs.ball i ri
  obtain ⟨ρ', fj, pj⟩ := hs.ball j rj
  have hap := hs.apart i j ri rj hbod
  have hpi := hs.planet i ri
  have hpj := hs.planet j rj
  have si := begun_placed M sc inp w _ pi
  have sj := begun_placed M sc inp w _ pj
  rw [hcur _ ri, hcur _ rj, (hm _).2, (hm _).2, fi, fj, ball_ball, si, sj] at hco
  have hinf := Option.some.inj hco
  have hpl : ∀ k, (movedBodies M inp w k) = (w.begun M sc inp).bodies k := fun k => rfl
  rw [hpl, hpl] at hap
  rw [hpl] at hpi hpj
  generalize hxi : ((w.begun M sc inp).bodies (sc.figs i).body).p = xi at *
  generalize hxj : ((w.begun M sc inp).bodies (sc.figs j).body).p = xj at *
  have hr : info.swapped = false ∧ (xj.sub xi).lengthSq < (ρ + ρ') * (ρ + ρ') ∧
      info.n = (if M.sqrt (xj.sub xi).lengthSq ≠ 0 then (xj.sub xi).scale (1 / M.sqrt (xj.sub xi).lengthSq) else ⟨1, 0⟩) := by
    rw [← hinf] at hne ⊢
    unfold circleToCircle at hne ⊢
    dsimp only at hne ⊢
    split at hne
    · rename_i hlt
      rw [if_pos hlt]
      exact ⟨rfl, hlt, rfl⟩
    · exact absurd rfl hne
  obtain ⟨hsw, hlt, hn⟩ := hr
  have hab' : ab = (i, j) := by rw [hpair, Info.pair, hsw]; rfl
  subst hab'
  have hnorm : (heldArb ((w.found M sc inp).swept sc).cache i j).normal = info.n := by
    rw [harb]
    unfold World.updated
    dsimp only
    split_ifs <;> simp only [Arbiter.update]
  have hsurf : ((∀ i, (sc.figs i).surface.friction = 0) → (heldArb ((w.found M sc inp).swept sc).cache i j).u = 0) ∧
      (heldArb ((w.found M sc inp).swept sc).cache i j).surfaceVr = (((sc.figs j).surface.velocity.sub (sc.figs i).surface.velocity).sub
        (info.n.scale (((sc.figs j).surface.velocity.sub (sc.figs i).surface.velocity).dot info.n))) := by
    rw [harb]
    unfold World.updated
    dsimp only
    split_ifs <;> simp only [Arbiter.update] <;> exact ⟨fun h => by rw [h i, zero_mul], trivial⟩
  have gi := (hm i).1
  have gj := (hm j).1
  rw [fi] at gi
  rw [fj] at gj
  obtain ⟨hn1, e, e0, -, e1, e2⟩ := direction hM (xj.sub xi) ⟨1, 0⟩ (by norm_num) (add_nonneg gi gj) hlt
  rw [← hn] at hn1 e1 e2
  have epos : 0 < e := by
    refine lt_of_le_of_ne e0 fun h => hap ?_
    rw [← h, zero_mul] at e1 e2
    simp only [V2.sub] at e1 e2
    exact V2.ext (by linarith) (by linarith)
  have hdot : 0 < info.n.dot (xj.sub xi) := by
    have : info.n.dot (xj.sub xi) = e * (info.n.x ^ 2 + info.n.y ^ 2) := by simp only [V2.dot]; rw [e1, e2]; ring
    rw [this, hn1, mul_one]
    exact epos
  have m1 := (movedBodies_mass M inp w (sc.figs i).body).1
  have m2 := (movedBodies_mass M inp w (sc.figs j).body).1
  have hboth : ¬((w.bodies (sc.figs i).body).mInv = 0 ∧ (w.bodies (sc.figs j).body).mInv = 0) := fun h => hap ((hpi h.1).trans (hpj h.2).symm)
  refine ⟨?_, ?_, hsurf.1, ?_⟩
  · refine ⟨hbod, by dsimp only; rw [hnorm]; exact hn1, ?_⟩
    dsimp only
    rw [m1, m2]
    refine lt_of_le_of_ne (add_nonneg (hmass _) (hmass _)) fun h => hboth ?_
    have a := hmass (sc.figs i).body
    have b := hmass (sc.figs j).body
    exact ⟨by linarith, by linarith⟩
  · simp only [Opens, hnorm, m1, m2]
    rw [hpl, hpl, hxi, hxj]
    by_cases hi : (w.bodies (sc.figs i).body).mInv = 0
    · exact .inr (.inl ⟨hi, fun hj => hboth ⟨hi, hj⟩, by rw [← hpi hi]; exact hdot⟩)
    · by_cases hj : (w.bodies (sc.figs j).body).mInv = 0
      · exact .inr (.inr ⟨hi, hj, by rw [← hpj hj]; exact hdot⟩)
      · exact .inl ⟨hi, hj, hdot⟩
  · dsimp only
    rw [hsurf.2, hnorm]
    simp only [V2.dot, V2.sub, V2.scale]
    linear_combination (-(((sc.figs j).surface.velocity.x - (sc.figs i).surface.velocity.x) * info.n.x + ((sc.figs j).surface.velocity.y - (sc.figs i).surface.velocity.y) * info.n.y)) * hn1

/-- **C151**. After any history, in a simulation of balls of which at most one cannot be pushed, with any joints and friction: the corrections of overlaps in a step settle
as the number of its iterations grows, and they correct every overlap of the balls at least as fast as it asks for, however many balls there are and however they overlap. -/
theorem C151_swarm [Archimedean K] {M : Mth K} (hM : M.Lawful) {sc : Scene K} {fig : Nat → Figure K} (hm : Made M sc fig) (hper : 1 ≤ sc.persistence) (bodies : Nat → Body K)
    (shapes : Nat → CShape K) (hb : ∀ k, Rigid (bodies k).tr) (hs : ∀ i, (shapes i).bb.L ≤ (shapes i).bb.R ∧ (shapes i).bb.B ≤ (shapes i).bb.T)
    (ops : List (WorldOp K)) (inp : Tick K) (hl : WLegal sc (fun _ => none) (ops ++ [.step inp])) (h0 : inp.dt ≠ 0) :
    ∃ w, (World.init bodies shapes).run M sc ops = some w ∧ ((∀ k, 0 ≤ (w.bodies k).mInv ∧ 0 ≤ (w.bodies k).iInv) → ∀ o, Swarm M sc fig (rosterAfter (fun _ => none) ops) inp o w →
      ∃ u, Parts .corrections (prepared M sc.par.inf sc.par.slop sc.par.cbias sc.par.damping sc.par.gravity inp.dyn w.prevDT inp.dt
          ⟨movedBodies M inp w, collisions M sc inp w, w.joints⟩) u ∧
        ∀ ε > 0, ∃ n0, ∀ n ≥ n0, ∀ k, FlowNear ε (Channel.corrections.flow ((w.step M (iterating sc n) inp).bodies k)) (u k)) := by
  obtain ⟨hl1, hl2, -⟩ := (legal_append sc ops _ _).1 hl
  obtain ⟨w, e, hu, hf⟩ := run_filed hM hm hper ops _ _ (init_upright sc bodies shapes hb hs) ⟨List.Pairwise.nil, List.Pairwise.nil, (fun p hp => by cases hp)⟩ hl1
  refine ⟨w, e, fun hmass o hsw => ?_⟩
  have key := swarm_opens hM hm hper hu hf hl2 hsw fun k => (hmass k).1
  exact C151_step M sc inp w h0 hmass (fun l hl => (key l hl).1) o fun l hl => (key l hl).2.1

/-- Without friction and joints the velocities settle too, and the balls part at least as fast as asked for: none goes on moving into another. -/
theorem C151_speeds [Archimedean K] {M : Mth K} (hM : M.Lawful) {sc : Scene K} {fig : Nat → Figure K} (hm : Made M sc fig) (hper : 1 ≤ sc.persistence)
    (hfr : ∀ i, (sc.figs i).surface.friction = 0) (bodies : Nat → Body K)
    (shapes : Nat → CShape K) (hb : ∀ k, Rigid (bodies k).tr) (hs : ∀ i, (shapes i).bb.L ≤ (shapes i).bb.R ∧ (shapes i).bb.B ≤ (shapes i).bb.T)
    (ops : List (WorldOp K)) (inp : Tick K) (hl : WLegal sc (fun _ => none) (ops ++ [.step inp])) (h0 : inp.dt ≠ 0) :
    ∃ w, (World.init bodies shapes).run M sc ops = some w ∧ ((∀ k, 0 ≤ (w.bodies k).mInv ∧ 0 ≤ (w.bodies k).iInv) → w.joints = [] →
      ∀ o, Swarm M sc fig (rosterAfter (fun _ => none) ops) inp o w →
      ∃ u, Parts .impacts (prepared M sc.par.inf sc.par.slop sc.par.cbias sc.par.damping sc.par.gravity inp.dyn w.prevDT inp.dt
          ⟨movedBodies M inp w, collisions M sc inp w, w.joints⟩) u ∧
        ∀ ε > 0, ∃ n0, ∀ n ≥ n0, ∀ k, FlowNear ε (Channel.impacts.flow ((w.step M (iterating sc n) inp).bodies k)) (u k)) := by
  obtain ⟨hl1, hl2, -⟩ := (legal_append sc ops _ _).1 hl
  obtain ⟨w, e, hu, hf⟩ := run_filed hM hm hper ops _ _ (init_upright sc bodies shapes hb hs) ⟨List.Pairwise.nil, List.Pairwise.nil, (fun p hp => by cases hp)⟩ hl1
  refine ⟨w, e, fun hmass hj o hsw => ?_⟩
  have key := swarm_opens hM hm hper hu hf hl2 hsw fun k => (hmass k).1
  have push := (C116_cone M sc (fun i => (hfr i).ge) bodies shapes ops w e).2 inp
  obtain ⟨u, hu, h⟩ := C149_speeds M sc.par.inf sc.par.slop sc.par.cbias sc.par.damping sc.par.gravity inp.dyn w.prevDT inp.dt
    ⟨movedBodies M inp w, collisions M sc inp w, w.joints⟩ (fun k => by
      show 0 ≤ (movedBodies M inp w k).mInv ∧ 0 ≤ (movedBodies M inp w k).iInv
      rw [(movedBodies_mass M inp w k).1, (movedBodies_mass M inp w k).2]
      exact hmass k) (fun l hl => by
      obtain ⟨k1, -, k3, k4⟩ := key l hl
      refine ⟨k1, ⟨k3 hfr, k4, fun c hc => ?_⟩, fun c hc => (push l hl c hc).1⟩
      have := (push l hl c hc).2
      rw [k3 hfr, zero_mul, fabs_eq] at this
      exact abs_nonpos_iff.1 this) hj o fun l hl => (key l hl).2.1
  refine ⟨u, hu, fun ε hε => ?_⟩
  obtain ⟨n0, hn⟩ := h ε hε
  refine ⟨n0, fun n hn0 k => ?_⟩
  rw [step_iterating M sc inp w h0]
  exact hn n hn0 k

/-! ## Examples -/

/-- The hypotheses of C151: two balls in the air, one of which has been thrown at the other; there is a collision. -/
example (shapes : Nat → CShape ℝ) (hs : ∀ i, (shapes i).bb.L ≤ (shapes i).bb.R ∧ (shapes i).bb.B ≤ (shapes i).bb.T) (t : Tick ℝ)
    (ht : t = ⟨1/60, [0, 1], [0, 1], fun _ _ => true, fun _ _ => true⟩) :
    Made realMth (exFloating false) (exThrownFig false) ∧ (∀ k, Rigid (exThrownBodies false k).tr) ∧ WLegal (exFloating false) (fun _ => none) (twoOps true ++ [.step t]) ∧
    (∀ i, ((exFloating false).figs i).surface.friction = 0) ∧
    ∃ w, (World.init (exThrownBodies false) shapes).run realMth (exFloating false) (twoOps true) = some w ∧ (w.step realMth (exFloating false) t).active ≠ [] ∧
      (∀ k, 0 ≤ (w.bodies k).mInv ∧ 0 ≤ (w.bodies k).iInv) ∧ w.joints = [] ∧
      Swarm realMth (exFloating false) (exThrownFig false) (rosterAfter (fun _ => none) (twoOps (K := ℝ) true)) t ⟨0, 0⟩ w := by
  obtain ⟨h1, h2, h3, w, e, w1, w2, w3, p, p1, -⟩ := exFloating_meet false shapes hs t (by rw [ht]; rfl)
  have two : ∀ i, rosterAfter (fun _ => none) (twoOps (K := ℝ) true) i ≠ none → i = 0 ∨ i = 1 := by
    intro i hi
    rw [two_roster] at hi
    by_contra h
    push Not at h
    exact hi (by rw [if_neg h.2, if_neg h.1])
  refine ⟨h1, h2, h3, fun i => by simp [exFloating], w, e, by rw [p1]; simp, ?_, w3, ⟨fun i hi => ?_, fun i j hi hj hne => ?_, fun i hi h0 => ?_⟩⟩
  · intro k; rw [w1]; unfold exThrownBodies; split_ifs <;> norm_num [Body.blank]
  · refine ⟨1, ?_⟩
    rw [w1]
    rcases two i hi with rfl | rfl <;> norm_num [exThrownFig, exFloating, exThrownBodies, Body.blank, V2.zero, Centred, Transform.apply, Transform.identity]
  · rw [ht]
    rcases two i hi with rfl | rfl <;> rcases two j hj with rfl | rfl <;> first
      | exact absurd rfl hne
      | norm_num [movedBodies, w1, exFloating, exThrownBodies, Body.blank, V2.zero, V2.add, V2.scale, Body.updatePosition, Body.setTransform]
  · exfalso
    rw [w1] at h0
    rcases two i hi with rfl | rfl <;> norm_num [exFloating, exThrownBodies, Body.blank] at h0

end Cm
