import Verif.Props.Impact
import Mathlib.Algebra.Order.BigOperators.Group.Finset
import Mathlib.Algebra.BigOperators.Intervals
/-! # C121: what nothing touches flies along a parabola -/
set_option linter.unusedSectionVars false
set_option linter.unusedSimpArgs false
set_option linter.unusedVariables false

namespace Cm
open Spec
variable {K : Type} [Field K] [LinearOrder K] [IsStrictOrderedRing K]

namespace Spec
/-- A coordinate of the velocity after `n` steps of the length `dt`, each of which leaves the part `d` of it and adds what the acceleration `a` gives. -/
def speedAt (d dt a v : K) (n : Nat) : K := v * d ^ n + a * dt * ∑ i ∈ Finset.range n, d ^ i

/-- A coordinate of the position: each step moves the body with the velocity from before the step. -/
def placeAt (d dt a v p : K) (n : Nat) : K := p + dt * ∑ i ∈ Finset.range n, speedAt d dt a v i

/-- `b'` is what `b` has become in a flight of `n` steps. -/
structure Flown (M : Mth K) (d dt : K) (g : V2 K) (n : Nat) (b b' : Body K) : Prop where
  v : b'.v = ⟨speedAt d dt g.x b.v.x n, speedAt d dt g.y b.v.y n⟩
  p : b'.p = ⟨placeAt d dt g.x b.v.x b.p.x n, placeAt d dt g.y b.v.y b.p.y n⟩
  w : b'.w = speedAt d dt 0 b.w n
  angle : b'.angle = placeAt d dt 0 b.w b.angle n
  same : b'.m = b.m ∧ b'.mInv = b.mInv ∧ b'.i = b.i ∧ b'.iInv = b.iInv ∧ b'.cog = b.cog ∧ b'.idle = b.idle
  free : b'.force = ⟨0, 0⟩ ∧ b'.torque = 0 ∧ b'.vBias = ⟨0, 0⟩ ∧ b'.wBias = 0

/-- No shape of body `k` touches a shape it could collide with, except sensors. -/
def Untouched (sc : Scene K) (fig : Nat → Figure K) (k : Nat) (r : Roster) (w : World K) : Prop :=
  ∀ i j, Colliding sc fig r w i j → (sc.figs i).body = k ∨ (sc.figs j).body = k → (sc.figs i).sensor = true ∨ (sc.figs j).sensor = true

/-- The boxes about the shapes of body `k` overlap no boxes about shapes they could collide with. -/
def BoxesApart (sc : Scene K) (k : Nat) (r : Roster) (w : World K) : Prop :=
  ∀ i j, r i ≠ none → r j ≠ none → (sc.figs i).body = k ∨ (sc.figs j).body = k → (sc.figs i).body ≠ (sc.figs j).body → Accepts (sc.figs i).filter (sc.figs j).filter →
    ¬ Overlap (w.shapes i).bb (w.shapes j).bb

/-- In the history `ops` the user leaves body `k` alone, ties no joint to it, and each step has the length `dt`, moves `k` and ends in a world with `P`. -/
def Airborne (M : Mth K) (sc : Scene K) (k : Nat) (dt : K) (P : Roster → World K → Prop) : Roster → World K → List (WorldOp K) → Prop
  | _, _, [] => True
  | r, w, op :: ops => (match op with
      | .step inp => inp.dt = dt ∧ k ∈ inp.dyn ∧ P r (w.step M sc inp)
      | .setBody j _ => j ≠ k
      | .setJoints js _ => ∀ l ∈ js, l.ia ≠ k ∧ l.ib ≠ k
      | _ => True) ∧ ∀ w', w.run1 M sc op = some w' → Airborne M sc k dt P (rosterStep r op) w' ops

/-- How many steps there are in a history. -/
def stepsIn : List (WorldOp K) → Nat
  | [] => 0
  | .step _ :: ops => stepsIn ops + 1
  | _ :: ops => stepsIn ops
end Spec

theorem speedAt_succ (d dt a v : K) (n : Nat) : speedAt d dt a v (n + 1) = speedAt d dt a v n * d + a * dt := by
  unfold speedAt
  rw [Finset.sum_range_succ', pow_succ, pow_zero]
  have : ∑ i ∈ Finset.range n, d ^ (i + 1) = (∑ i ∈ Finset.range n, d ^ i) * d := by
    rw [Finset.sum_mul]; exact Finset.sum_congr rfl fun i _ => pow_succ d i
  rw [this]; ring

theorem placeAt_succ (d dt a v p : K) (n : Nat) : placeAt d dt a v p (n + 1) = placeAt d dt a v p n + speedAt d dt a v n * dt := by
  unfold placeAt
  rw [Finset.sum_range_succ]; ring

theorem flown_none (M : Mth K) (d dt : K) (g : V2 K) (b : Body K) (h : b.force = ⟨0, 0⟩ ∧ b.torque = 0 ∧ b.vBias = ⟨0, 0⟩ ∧ b.wBias = 0) : Flown M d dt g 0 b b := by
  refine ⟨?_, ?_, ?_, ?_, ⟨rfl, rfl, rfl, rfl, rfl, rfl⟩, h⟩ <;> simp [speedAt, placeAt]

theorem flown_step {M : Mth K} {d dt inf : K} {g : V2 K} {n : Nat} {b b' : Body K} (h : Flown M d dt g n b b') (hd : b.m ≠ inf ∧ b.idle ≠ inf) :
    Flown M d dt g (n + 1) b ((b'.updatePosition M dt).updateVelocity inf g d dt) := by
  obtain ⟨h1, h2, h3, h4, ⟨s1, s2, s3, s4, s5, s6⟩, h6, h7, h8, h9⟩ := h
  have ht : (b'.updatePosition M dt).type inf ≠ .kinematic := by
    unfold Body.type Body.updatePosition Body.setTransform
    dsimp only
    rw [s1, s6, if_neg hd.2, if_neg hd.1]; decide
  unfold Body.updateVelocity
  rw [if_neg ht]
  refine ⟨?_, ?_, ?_, ?_, ⟨s1, s2, s3, s4, s5, s6⟩, rfl, rfl, rfl, rfl⟩
  · simp only [Body.updatePosition, Body.setTransform, h1, h6, speedAt_succ, V2.scale, V2.add]
    apply V2.ext <;> simp
  · simp only [Body.updatePosition, Body.setTransform, h1, h2, h8, placeAt_succ, V2.scale, V2.add]
    apply V2.ext <;> simp
  · simp only [Body.updatePosition, Body.setTransform, h3, h7, speedAt_succ]; ring
  · simp only [Body.updatePosition, Body.setTransform, h3, h4, h9, placeAt_succ]; ring

theorem linkLoop_ends {α : Type} (f : α → Body K → Body K → Body K × Body K × α) (ls : List (Link α)) :
    ∀ bs, (linkLoop f ls bs).2.map (fun l => (l.ia, l.ib)) = ls.map (fun l => (l.ia, l.ib)) := by
  induction ls with
  | nil => intro bs; rfl
  | cons l ls ih => intro bs; simp only [linkLoop, List.map_cons, ih]

/-- The solver does not change what the joints hold. -/
theorem step_ends (M : Mth K) (par : Params K) (prevDT : K) (i : StepIn K) (s : SolverState K) :
    (s.step M par prevDT i).joints.map (fun l => (l.ia, l.ib)) = s.joints.map (fun l => (l.ia, l.ib)) := by
  unfold SolverState.step
  split
  · rfl
  · unfold SolverState.solve
    have h1 : (SolverState.preStep M par.inf par.slop par.cbias i.dt { s.positions M i.dyn i.dt with arbs := i.arbs }).joints.map (fun l => (l.ia, l.ib)) =
        s.joints.map (fun l => (l.ia, l.ib)) := linkLoop_ends _ _ _
    generalize SolverState.preStep M par.inf par.slop par.cbias i.dt { s.positions M i.dyn i.dt with arbs := i.arbs } = s1 at h1 ⊢
    have h2 : ((s1.velocities M par.inf par.damping par.gravity i.dyn i.dt).cached prevDT i.dt).joints.map (fun l => (l.ia, l.ib)) = s1.joints.map (fun l => (l.ia, l.ib)) :=
      linkLoop_ends _ _ _
    generalize (s1.velocities M par.inf par.damping par.gravity i.dyn i.dt).cached prevDT i.dt = s3 at h2 ⊢
    rw [← h1, ← h2]
    clear h1 h2
    generalize par.iterations = n
    induction n generalizing s3 with
    | zero => rfl
    | succ n ih =>
      rw [Function.iterate_succ_apply, ih]
      exact linkLoop_ends _ _ _

/-- The flight, for any condition that keeps the body out of all collisions. -/
theorem flight {M : Mth K} (hM : M.Lawful) {sc : Scene K} {fig : Nat → Figure K} (hm : Made M sc fig) {k : Nat} {dt : K} (h0 : dt ≠ 0) {P : Roster → World K → Prop} {Q : Roster → Prop}
    (hP : ∀ r w inp, Upright sc r w → Q r → WOk sc r (.step inp) → inp.dt = dt → P r (w.step M sc inp) → ∀ p ∈ (w.step M sc inp).active, (sc.figs p.1).body ≠ k ∧ (sc.figs p.2).body ≠ k)
    (ops : List (WorldOp K)) : ∀ (r : Roster) (w : World K) (n : Nat) (b : Body K), Upright sc r w → WLegal sc r ops → (∀ pre, pre <+: ops → Q (rosterAfter r pre)) →
    b.m ≠ sc.par.inf ∧ b.idle ≠ sc.par.inf →
    (∀ l ∈ w.joints, l.ia ≠ k ∧ l.ib ≠ k) → Flown M (M.pow sc.par.damping dt) dt sc.par.gravity n b (w.bodies k) → Airborne M sc k dt P r w ops →
    ∃ w', w.run M sc ops = some w' ∧ Flown M (M.pow sc.par.damping dt) dt sc.par.gravity (n + stepsIn ops) b (w'.bodies k) := by
  induction ops with
  | nil => intro r w n b _ _ _ _ _ hf _; exact ⟨w, rfl, hf⟩
  | cons op ops ih =>
    intro r w n b hu hl hq hd hj hf ha
    obtain ⟨w1, e1, hu1⟩ := run1_upright hM hm hu op hl.1
    have hq1 : ∀ pre, pre <+: ops → Q (rosterAfter (rosterStep r op) pre) := fun pre hp => hq (op :: pre) (List.cons_prefix_cons.2 ⟨rfl, hp⟩)
    have ha1 := ha.2 w1 e1
    have key : ∀ m, (∀ l ∈ w1.joints, l.ia ≠ k ∧ l.ib ≠ k) → Flown M (M.pow sc.par.damping dt) dt sc.par.gravity m b (w1.bodies k) →
        ∃ w', w.run M sc (op :: ops) = some w' ∧ Flown M (M.pow sc.par.damping dt) dt sc.par.gravity (m + stepsIn ops) b (w'.bodies k) := by
      intro m x1 x2
      obtain ⟨w2, e2, f2⟩ := ih _ w1 m b hu1 hl.2 hq1 hd x1 x2 ha1
      exact ⟨w2, by simp only [World.run, e1, e2], f2⟩
    cases op with
    | step inp =>
      obtain rfl := Option.some.inj e1
      obtain ⟨a1, a2, a3⟩ := ha.1
      have h0' : inp.dt ≠ 0 := by rw [a1]; exact h0
      have hact := hP r w inp hu (hq [] (List.nil_prefix)) hl.1 a1 a3
      have hc : ∀ l ∈ collisions M sc inp w, l.ia ≠ k ∧ l.ib ≠ k := by
        intro l hl
        obtain ⟨x, hx, rfl⟩ := List.mem_map.1 hl
        exact hact x (by rw [(step_frame M sc inp w h0').2.2.2.1]; exact hx)
      have hb := C115_alone M sc inp w h0' k hj hc
      rw [if_pos a2, a1] at hb
      rw [show n + stepsIn (.step inp :: ops) = (n + 1) + stepsIn ops by simp only [stepsIn]; omega]
      refine key _ ?_ (by rw [hb]; exact flown_step hf hd)
      obtain ⟨-, e, -⟩ := C111_step M sc inp w ⟨w.bodies, [], w.joints⟩ rfl rfl
      have e' := step_ends M sc.par w.prevDT ⟨inp.dt, inp.dyn, collisions M sc inp w⟩ ⟨w.bodies, [], w.joints⟩
      rw [← e] at e'
      intro l hl
      have hm : (l.ia, l.ib) ∈ w.joints.map (fun l => (l.ia, l.ib)) := by rw [← e']; exact List.mem_map.2 ⟨l, hl, rfl⟩
      obtain ⟨l', hl', el⟩ := List.mem_map.1 hm
      rw [← show l'.ia = l.ia from congrArg Prod.fst el, ← show l'.ib = l.ib from congrArg Prod.snd el]
      exact hj l' hl'
    | addDyn x => obtain ⟨t, -, rfl⟩ := Option.map_eq_some_iff.1 e1; exact key n hj hf
    | addStat x => obtain ⟨t, -, rfl⟩ := Option.map_eq_some_iff.1 e1; exact key n hj hf
    | removeDyn x => obtain ⟨t, -, rfl⟩ := Option.map_eq_some_iff.1 e1; exact key n hj hf
    | removeStat x => obtain ⟨t, -, rfl⟩ := Option.map_eq_some_iff.1 e1; exact key n hj hf
    | reindex x => obtain rfl := Option.some.inj e1; exact key n hj hf
    | setBody j b' =>
      obtain rfl := Option.some.inj e1
      have : k ≠ j := fun e => ha.1 e.symm
      exact key n hj (by simpa only [if_neg this] using hf)
    | setJoints js barred => obtain rfl := Option.some.inj e1; exact key n ha.1 hf

/-- **C121.** In a space in which only balls move among balls and rods, after any history that keeps the rules, a body that the user and the joints leave alone and whose shapes
touch nothing but sensors flies as the closed formulas say, whatever happens elsewhere. -/
theorem C121_flight {M : Mth K} (hM : M.Lawful) {sc : Scene K} {fig : Nat → Figure K} (hm : Made M sc fig) (bodies : Nat → Body K) (shapes : Nat → CShape K)
    (hb : ∀ k, Rigid (bodies k).tr) (hs : ∀ i, (shapes i).bb.L ≤ (shapes i).bb.R ∧ (shapes i).bb.B ≤ (shapes i).bb.T) {k : Nat} {dt : K} (h0 : dt ≠ 0)
    (ops ops' : List (WorldOp K)) (hl : WLegal sc (fun _ => none) (ops ++ ops')) (he : ∀ pre, pre <+: ops' → AllEasy sc fig (rosterAfter (rosterAfter (fun _ => none) ops) pre))
    (hstart : ∀ w, (World.init bodies shapes).run M sc ops = some w → ((w.bodies k).m ≠ sc.par.inf ∧ (w.bodies k).idle ≠ sc.par.inf) ∧
      ((w.bodies k).force = ⟨0, 0⟩ ∧ (w.bodies k).torque = 0 ∧ (w.bodies k).vBias = ⟨0, 0⟩ ∧ (w.bodies k).wBias = 0) ∧ (∀ l ∈ w.joints, l.ia ≠ k ∧ l.ib ≠ k) ∧
      Airborne M sc k dt (Untouched sc fig k) (rosterAfter (fun _ => none) ops) w ops') :
    ∃ w w', (World.init bodies shapes).run M sc ops = some w ∧ w.run M sc ops' = some w' ∧
      Flown M (M.pow sc.par.damping dt) dt sc.par.gravity (stepsIn ops') (w.bodies k) (w'.bodies k) := by
  classical
  obtain ⟨hl1, hl2⟩ := (legal_append sc _ _ _).1 hl
  obtain ⟨w, hw, hu⟩ := run_upright hM hm ops _ _ (init_upright sc bodies shapes hb hs) hl1
  obtain ⟨s1, s2, s3, s4⟩ := hstart w hw
  obtain ⟨w', e', f'⟩ := flight hM hm h0 (P := Untouched sc fig k) (Q := AllEasy sc fig) (fun r w inp hu hq ho hdt hp => by
    have hne : inp.dt ≠ 0 := by rw [hdt]; exact h0
    obtain ⟨fd, fd1, fd2, fd3⟩ := step_exact hM hm hu inp ho hne (finds_detects hM hm hu inp ho (.inl hq))
    intro p hpa
    rw [fd3, List.mem_filter] at hpa
    have hc := (fd2 p.1 p.2).1 ⟨p, hpa.1, .inl rfl⟩
    obtain ⟨-, -, -, w1, w2, -⟩ := of_decide_eq_true hpa.2
    constructor <;> intro e
    · rcases hp _ _ hc (.inl e) with h | h
      · rw [w1] at h; cases h
      · rw [w2] at h; cases h
    · rcases hp _ _ hc (.inr e) with h | h
      · rw [w1] at h; cases h
      · rw [w2] at h; cases h) ops' _ w 0 (w.bodies k) hu hl2 he s1 s3 (flown_none M _ dt _ _ s2) s4
  exact ⟨w, w', hw, e', by rw [Nat.zero_add] at f'; exact f'⟩

/-- **C121.** The same for balls, rods and polygons, if the boxes about the shapes do not even overlap. -/
theorem C121_boxes {M : Mth K} (hM : M.Lawful) {sc : Scene K} {fig : Nat → Figure K} (hm : Made M sc fig) (bodies : Nat → Body K) (shapes : Nat → CShape K)
    (hb : ∀ k, Rigid (bodies k).tr) (hs : ∀ i, (shapes i).bb.L ≤ (shapes i).bb.R ∧ (shapes i).bb.B ≤ (shapes i).bb.T) {k : Nat} {dt : K} (h0 : dt ≠ 0)
    (ops ops' : List (WorldOp K)) (hl : WLegal sc (fun _ => none) (ops ++ ops'))
    (hstart : ∀ w, (World.init bodies shapes).run M sc ops = some w → ((w.bodies k).m ≠ sc.par.inf ∧ (w.bodies k).idle ≠ sc.par.inf) ∧
      ((w.bodies k).force = ⟨0, 0⟩ ∧ (w.bodies k).torque = 0 ∧ (w.bodies k).vBias = ⟨0, 0⟩ ∧ (w.bodies k).wBias = 0) ∧ (∀ l ∈ w.joints, l.ia ≠ k ∧ l.ib ≠ k) ∧
      Airborne M sc k dt (BoxesApart sc k) (rosterAfter (fun _ => none) ops) w ops') :
    ∃ w w', (World.init bodies shapes).run M sc ops = some w ∧ w.run M sc ops' = some w' ∧
      Flown M (M.pow sc.par.damping dt) dt sc.par.gravity (stepsIn ops') (w.bodies k) (w'.bodies k) := by
  classical
  obtain ⟨hl1, hl2⟩ := (legal_append sc _ _ _).1 hl
  obtain ⟨w, hw, hu⟩ := run_upright hM hm ops _ _ (init_upright sc bodies shapes hb hs) hl1
  obtain ⟨s1, s2, s3, s4⟩ := hstart w hw
  obtain ⟨w', e', f'⟩ := flight hM hm h0 (P := BoxesApart sc k) (Q := fun _ => True) (fun r w inp hu hq ho hdt hp => by
    have hne : inp.dt ≠ 0 := by rw [hdt]; exact h0
    obtain ⟨q1, q2, q3, q4, q5⟩ := step_frame M sc inp w hne
    obtain ⟨hb, -⟩ := begun_upright hM hm hu inp ho
    have hc := calls_apart hM hm hu inp ho
    intro p hpa
    rw [q4] at hpa
    have hact : (w.found M sc inp).active = (w.calls M sc inp).filterMap ((w.begun M sc inp).solved M sc inp) :=
      ((meets_active M sc inp (w.calls M sc inp) (w.begun M sc inp) hc).1).trans (List.nil_append _)
    rw [hact] at hpa
    obtain ⟨c, hcm, hcs⟩ := List.mem_filterMap.1 hpa
    obtain ⟨info, hi, rfl, -⟩ := solved_pair hcs
    obtain ⟨m, hr, hm1, -⟩ := hu.index
    have hleg : Legal m (.reindexQuery inp.order (fun i => ((w.begun M sc inp).shapes i).bb) fun i => ((w.begun M sc inp).bodies (sc.figs i).body).v) := by
      refine ⟨hb.proper, ho.1, fun i => ?_⟩
      rw [ho.2.1, ← hm1]
      cases m i with
      | none => simp
      | some x => obtain ⟨b, bb⟩ := x; simp
    obtain ⟨-, i1, i2, -⟩ := (rel_calls hr hleg).2.1 c.1 c.2 hcm
    have j1 : r c.1 ≠ none := by rw [← hm1]; intro e; rw [Option.map_eq_none_iff] at e; rw [e] at i1; cases i1
    have j2 : r c.2 ≠ none := by rw [← hm1]; intro e; rw [Option.map_eq_none_iff] at e; rw [e] at i2; cases i2
    have hq : queryReject (fun x => (sc.figs x).body) (fun x => (sc.figs x).filter) (fun x => ((w.begun M sc inp).shapes x).bb) (w.begun M sc inp).barred c.1 c.2 = false := by
      by_contra hcon
      rw [Bool.not_eq_false] at hcon
      unfold World.hit World.answer at hi
      rw [hcon] at hi
      cases hi
    obtain ⟨n1, n2, n3, -⟩ := (not_reject _ _ _ hb.proper _ _ _).1 hq
    have none : ¬ ((sc.figs c.1).body = k ∨ (sc.figs c.2).body = k) := fun e => by
      have := hp c.1 c.2 j1 j2 e n1 n2
      rw [q2] at this
      exact this n3
    rw [not_or] at none
    unfold Info.pair
    split
    · exact ⟨none.2, none.1⟩
    · exact none) ops' _ w 0 (w.bodies k) hu hl2 (fun _ _ => trivial) s1 s3 (flown_none M _ dt _ _ s2) s4
  exact ⟨w, w', hw, e', by rw [Nat.zero_add] at f'; exact f'⟩

/-! ## The formulas -/

/-- **C121.** Without damping the flight is a parabola. After the time `t` the velocity is exact, and the position is off by the distance the body would fall in the time `t` at
half the speed it gains in one step. -/
theorem C121_parabola {dt a v p t : K} {n : Nat} (ht : t = n * dt) : speedAt 1 dt a v n = v + a * t ∧ placeAt 1 dt a v p n = p + v * t + a * t ^ 2 / 2 - a * t * dt / 2 := by
  have hv : ∀ i, speedAt 1 dt a v i = v + a * (i * dt) := by intro i; simp [speedAt]; ring
  refine ⟨by rw [hv, ht], ?_⟩
  rw [ht]
  clear ht
  induction n with
  | zero => simp [placeAt]
  | succ n ih => rw [placeAt_succ, ih, hv]; push_cast; ring

/-- **C121.** With damping the velocity goes to its limit geometrically. -/
theorem C121_damped {d dt a v : K} (hd : d ≠ 1) (n : Nat) : speedAt d dt a v n - a * dt / (1 - d) = (v - a * dt / (1 - d)) * d ^ n := by
  have h : 1 - d ≠ 0 := sub_ne_zero.2 hd.symm
  induction n with
  | zero => simp [speedAt]
  | succ n ih =>
    rw [speedAt_succ, pow_succ, ← mul_assoc, ← ih]
    field_simp
    ring

/-- **C121.** The energy of a flight without damping: each step adds half the square of the speed gravity gives in it, per unit of mass. -/
theorem C121_energy {dt g v p : K} (n : Nat) :
    speedAt 1 dt (-g) v n ^ 2 / 2 + g * placeAt 1 dt (-g) v p n = v ^ 2 / 2 + g * p + n * ((g * dt) ^ 2 / 2) := by
  obtain ⟨h1, h2⟩ := C121_parabola (dt := dt) (a := -g) (v := v) (p := p) (n := n) rfl
  rw [h1, h2]; ring

/-! ## A ball above a floor -/

namespace Spec
/-- Shape 0 is a ball about the centre of gravity of its body, on which there is no force; shape 1 is a rod on another body, no part of whose middle is higher than `y`. -/
structure Above (sc : Scene K) (fig : Nat → Figure K) (bodies : Nat → Body K) (ρ r y : K) (a b : V2 K) : Prop where
  ball : fig 0 = .ball ρ (bodies (sc.figs 0).body).cog
  rod : fig 1 = .rod a b r
  apart : (sc.figs 0).body ≠ (sc.figs 1).body
  moved : (bodies (sc.figs 0).body).m ≠ sc.par.inf ∧ (bodies (sc.figs 0).body).idle ≠ sc.par.inf
  free : (bodies (sc.figs 0).body).force = ⟨0, 0⟩ ∧ (bodies (sc.figs 0).body).torque = 0 ∧ (bodies (sc.figs 0).body).vBias = ⟨0, 0⟩ ∧ (bodies (sc.figs 0).body).wBias = 0
  low : ((bodies (sc.figs 1).body).tr.apply a).y ≤ y ∧ ((bodies (sc.figs 1).body).tr.apply b).y ≤ y
end Spec

theorem moved_centre {M : Mth K} (hM : M.Lawful) (b : Body K) (dt : K) : (b.updatePosition M dt).tr.apply (b.updatePosition M dt).cog = (b.updatePosition M dt).p := by
  simp only [Body.updatePosition, Body.setTransform, Body.mkTransform, Transform.transpose, Transform.apply]
  apply V2.ext <;> dsimp only <;> ring

/-- A ball whose centre is high enough does not touch a rod. -/
theorem high_clear {t u : Transform K} {ρ r y : K} {c a b : V2 K} (h0 : 0 ≤ ρ) (h1 : 0 ≤ r) (ha : (u.apply a).y ≤ y) (hb : (u.apply b).y ≤ y) (hc : y + ρ + r ≤ (t.apply c).y) :
    ¬ (Figure.ball ρ c).Touch t u (.rod a b r) ∧ ¬ (Figure.rod a b r).Touch u t (.ball ρ c) := by
  have key : ∀ q, Figure.Mid (.rod a b r) q → (ρ + r) * (ρ + r) ≤ ((t.apply c).y - (u.apply q).y) ^ 2 := by
    rintro q ⟨s, s0, s1, rfl⟩
    have : (u.apply (At a b s)).y ≤ y := by
      rw [apply_at]
      simp only [At, V2.lerp, V2.add, V2.scale]
      nlinarith
    nlinarith
  constructor
  · rintro ⟨p, q, rfl, hq, -, h⟩
    have := h trivial
    have k := key q hq
    simp only [dist2, Figure.rad] at this
    nlinarith [sq_nonneg ((t.apply p).x - (u.apply q).x)]
  · rintro ⟨q, p, hq, rfl, -, h⟩
    have := h trivial
    have k := key q hq
    simp only [dist2, Figure.rad] at this
    nlinarith [sq_nonneg ((t.apply p).x - (u.apply q).x)]

/-- **C121.** A ball that is thrown above a floor flies as the formulas say, at least as long as they say that it is above the floor. -/
theorem C121_thrown {M : Mth K} (hM : M.Lawful) {sc : Scene K} {fig : Nat → Figure K} (hm : Made M sc fig) (bodies : Nat → Body K) (shapes : Nat → CShape K)
    (hb : ∀ k, Rigid (bodies k).tr) (hs : ∀ i, (shapes i).bb.L ≤ (shapes i).bb.R ∧ (shapes i).bb.B ≤ (shapes i).bb.T) {ρ r y : K} {a b : V2 K} (h : Above sc fig bodies ρ r y a b)
    {dt : K} (h0 : dt ≠ 0) (ts : List (Tick K)) (ht : ∀ t ∈ ts, t.dt = dt ∧ t.dyn = [(sc.figs 0).body] ∧ t.order = [0])
    (high : ∀ n, 0 < n → n ≤ ts.length → y + ρ + r ≤ placeAt (M.pow sc.par.damping dt) dt sc.par.gravity.y (bodies (sc.figs 0).body).v.y (bodies (sc.figs 0).body).p.y n) :
    ∃ w', (World.init bodies shapes).run M sc (twoOps false ++ ts.map .step) = some w' ∧
      Flown M (M.pow sc.par.damping dt) dt sc.par.gravity ts.length (bodies (sc.figs 0).body) (w'.bodies (sc.figs 0).body) ∧ w'.bodies (sc.figs 1).body = bodies (sc.figs 1).body := by
  obtain ⟨w, e, hu⟩ := run_upright hM hm (twoOps false) _ _ (init_upright sc bodies shapes hb hs) (by
    refine ⟨rfl, ?_, trivial⟩
    simp [WOk, rosterStep, Roster.set])
  obtain ⟨w1, -, w3, -⟩ := two_put M sc bodies shapes false e
  have hro : ∀ i, rosterAfter (fun _ => none) (twoOps (K := K) false) i = if i = 1 then some false else if i = 0 then some true else none := two_roster false
  generalize rosterAfter (fun _ => none) (twoOps (K := K) false) = ro at hu hro
  have hro1 : ∀ i, ro i ≠ none → i = 0 ∨ i = 1 := by
    intro i hi; rw [hro] at hi
    by_cases h1 : i = 1
    · exact .inr h1
    · by_cases h0 : i = 0
      · exact .inl h0
      · rw [if_neg h1, if_neg h0] at hi; exact absurd rfl hi
  have heasy : AllEasy sc fig ro := by
    intro i j hi hj hd hbo
    rcases hro1 i hi with rfl | rfl <;> rcases hro1 j hj with rfl | rfl
    · exact absurd rfl hbo
    · rw [h.ball, h.rod]; exact trivial
    · rw [h.ball, h.rod]; exact trivial
    · exact absurd rfl hbo
  have hr0 : 0 ≤ ρ := by have := (hm 0).1; rw [h.ball] at this; exact this
  have hr1 : 0 ≤ r := by have := (hm 1).1; rw [h.rod] at this; exact this.1
  -- by induction over the steps
  have main : ∀ (ts : List (Tick K)) (n : Nat) (w : World K), Upright sc ro w → w.joints = [] → w.bodies (sc.figs 1).body = bodies (sc.figs 1).body →
      Flown M (M.pow sc.par.damping dt) dt sc.par.gravity n (bodies (sc.figs 0).body) (w.bodies (sc.figs 0).body) →
      (∀ t ∈ ts, t.dt = dt ∧ t.dyn = [(sc.figs 0).body] ∧ t.order = [0]) →
      (∀ m, n < m → m ≤ n + ts.length → y + ρ + r ≤ placeAt (M.pow sc.par.damping dt) dt sc.par.gravity.y (bodies (sc.figs 0).body).v.y (bodies (sc.figs 0).body).p.y m) →
      ∃ w', w.run M sc (ts.map .step) = some w' ∧ Flown M (M.pow sc.par.damping dt) dt sc.par.gravity (n + ts.length) (bodies (sc.figs 0).body) (w'.bodies (sc.figs 0).body) ∧
        w'.bodies (sc.figs 1).body = bodies (sc.figs 1).body := by
    intro ts
    induction ts with
    | nil => intro n w _ _ x1 x2 _ _; exact ⟨w, rfl, x2, x1⟩
    | cons t ts ih =>
      intro n w hu hj hfix hf ht high
      obtain ⟨t1, t2, t3⟩ := ht t List.mem_cons_self
      have ho : WOk sc ro (.step t) := by
        refine ⟨by rw [t3]; simp, fun i => ?_, fun j hj => ?_⟩
        · rw [t3, hro]
          by_cases h1 : i = 1
          · subst h1; simp
          · by_cases h0 : i = 0
            · subst h0; simp
            · simp [h1, h0]
        · rw [t2, List.mem_singleton]
          rcases hro1 j (by rw [hj]; simp) with rfl | rfl
          · rw [hro] at hj; simp at hj
          · exact h.apart.symm
      have h0' : t.dt ≠ 0 := by rw [t1]; exact h0
      obtain ⟨g1, g2, g3, g4, g5⟩ := step_frame M sc t w h0'
      have hbeg : ∀ k, (w.begun M sc t).bodies k = if k = (sc.figs 0).body then (w.bodies k).updatePosition M dt else w.bodies k := by
        intro k
        show (SolverState.positions M t.dyn t.dt ⟨w.bodies, [], w.joints⟩).bodies k = _
        simp only [SolverState.positions, t1, t2, List.mem_singleton]
      have tr0 : ((w.step M sc t).bodies (sc.figs 0).body).tr = ((w.bodies (sc.figs 0).body).updatePosition M dt).tr := by
        rw [(g5 _).2.2.2, hbeg, if_pos rfl]
      have tr1 : ((w.step M sc t).bodies (sc.figs 1).body).tr = (bodies (sc.figs 1).body).tr := by
        rw [(g5 _).2.2.2, hbeg, if_neg h.apart.symm, hfix]
      have hcog : (w.bodies (sc.figs 0).body).cog = (bodies (sc.figs 0).body).cog := hf.same.2.2.2.2.1
      have hy : y + ρ + r ≤ ((((w.bodies (sc.figs 0).body).updatePosition M dt).tr).apply (bodies (sc.figs 0).body).cog).y := by
        have hcen := moved_centre hM (w.bodies (sc.figs 0).body) dt
        rw [show ((w.bodies (sc.figs 0).body).updatePosition M dt).cog = (bodies (sc.figs 0).body).cog from hcog] at hcen
        rw [hcen]
        have := high (n + 1) (Nat.lt_succ_self n) (by simp only [List.length_cons]; omega)
        rw [placeAt_succ] at this
        simpa [Body.updatePosition, Body.setTransform, V2.add, V2.scale, hf.p, hf.v, hf.free.2.2.1] using this
      have clear := high_clear (t := ((w.bodies (sc.figs 0).body).updatePosition M dt).tr) (u := (bodies (sc.figs 1).body).tr) hr0 hr1 h.low.1 h.low.2 hy
      have hun : ∀ i j, ¬ Colliding sc fig ro (w.step M sc t) i j := by
        rintro i j ⟨c1, c2, c3, -, c5, -, -, c8⟩
        rcases hro1 i c2 with rfl | rfl <;> rcases hro1 j c3 with rfl | rfl
        · exact absurd rfl c1
        · rw [tr0, tr1, h.ball, h.rod] at c8; exact absurd c8 clear.1
        · rw [tr0, tr1, h.ball, h.rod] at c8; exact absurd c8 clear.2
        · exact absurd rfl c1
      obtain ⟨fd, fd1, fd2, fd3⟩ := step_exact hM hm hu t ho h0' (finds_detects hM hm hu t ho (.inl heasy))
      have hc : ∀ l ∈ collisions M sc t w, False := by
        intro l hl
        obtain ⟨x, hx, rfl⟩ := List.mem_map.1 hl
        have hx' : x ∈ (w.step M sc t).active := by rw [g4]; exact hx
        rw [fd3, List.mem_filter] at hx'
        exact hun x.1 x.2 ((fd2 _ _).1 ⟨x, hx'.1, .inl rfl⟩)
      have alone := fun k => C115_alone M sc t w h0' k (by rw [hj]; intro l hl; cases hl) (fun l hl => (hc l hl).elim)
      have b0 := alone (sc.figs 0).body
      rw [if_pos (by rw [t2]; exact List.mem_cons_self), t1] at b0
      have b1 := alone (sc.figs 1).body
      rw [if_neg (by rw [t2, List.mem_singleton]; exact h.apart.symm), hfix] at b1
      have hj' : (w.step M sc t).joints = [] := by
        obtain ⟨-, e, -⟩ := C111_step M sc t w ⟨w.bodies, [], w.joints⟩ rfl rfl
        have e' := step_ends M sc.par w.prevDT ⟨t.dt, t.dyn, collisions M sc t w⟩ ⟨w.bodies, [], w.joints⟩
        rw [← e, hj] at e'
        exact List.map_eq_nil_iff.1 e'
      obtain ⟨w2, e2, hu2⟩ := run1_upright hM hm hu (.step t) ho
      obtain rfl := Option.some.inj e2
      obtain ⟨w', e', f', x'⟩ := ih (n + 1) (w.step M sc t) hu2 hj' b1 (by rw [b0]; exact flown_step hf h.moved) (fun t' h' => ht t' (List.mem_cons_of_mem _ h'))
        (fun m h1 h2 => high m (by omega) (by simp only [List.length_cons]; omega))
      refine ⟨w', ?_, by rw [show n + (t :: ts).length = n + 1 + ts.length by simp only [List.length_cons]; omega]; exact f', x'⟩
      simp only [List.map_cons, World.run, World.run1]
      exact e'
  obtain ⟨w', e', f', x'⟩ := main ts 0 w hu w3 (by rw [w1]) (by rw [w1]; exact flown_none M _ dt _ _ h.free) ht (fun n h1 h2 => high n h1 (by omega))
  exact ⟨w', by rw [run_append, e]; exact e', by rw [Nat.zero_add] at f'; exact f', x'⟩

/-! ## Examples -/

/-- A ball thrown from the height 9 over the floor of `exThrown`. -/
noncomputable def exLobBodies (k : Nat) : Body ℝ :=
  if k = 0 then { Body.blank with m := 2, mInv := 1/2, i := 1, iInv := 1, v := ⟨3, 4⟩, p := ⟨0, 9⟩, tr := ⟨1, 0, 0, 1, 0, 9⟩ }
  else { Body.blank with m := 100000, i := 100000, idle := 100000 }

theorem exLob_above : Above (exThrown true) (exThrownFig true) exLobBodies 1 (1/4) (-1) ⟨-9, -1⟩ ⟨9, -1⟩ := by
  constructor <;> norm_num [exThrownFig, exThrown, exLobBodies, Body.blank, V2.zero, Transform.apply, Transform.identity]

theorem exLob_made : Made realMth (exThrown true) (exThrownFig true) ∧ ∀ k, Rigid (exLobBodies k).tr := by
  refine ⟨fun i => ⟨?_, rfl⟩, fun k => ?_⟩
  · unfold exThrownFig
    split
    · exact ⟨by norm_num, by norm_num [V2.mk.injEq]⟩
    · exact zero_le_one (α := ℝ)
  · unfold exLobBodies
    split_ifs <;> norm_num [Rigid, Body.blank, Transform.identity]

/-- The hypotheses of `C121_thrown`: for a second and a half, that is ninety steps, the ball is above the floor. -/
example (ts : List (Tick ℝ)) (hl : ts.length = 90) :
    Made realMth (exThrown true) (exThrownFig true) ∧ (∀ k, Rigid (exLobBodies k).tr) ∧ Above (exThrown true) (exThrownFig true) exLobBodies 1 (1/4) (-1) ⟨-9, -1⟩ ⟨9, -1⟩ ∧
    ∀ n, 0 < n → n ≤ ts.length → (-1 : ℝ) + 1 + 1/4 ≤ placeAt (realMth.pow (exThrown true).par.damping (1/60)) (1/60) (exThrown true).par.gravity.y (exLobBodies ((exThrown true).figs 0).body).v.y
      (exLobBodies ((exThrown true).figs 0).body).p.y n := by
  refine ⟨exLob_made.1, exLob_made.2, exLob_above, fun n h1 h2 => ?_⟩
  have hd : realMth.pow (exThrown true).par.damping (1/60) = 1 := Real.one_rpow _
  have e := fun a v p : ℝ => (C121_parabola (dt := (1/60 : ℝ)) (a := a) (v := v) (p := p) (n := n) rfl).2
  rw [hd, e]
  have hn : (n : ℝ) ≤ 90 := by exact_mod_cast (hl ▸ h2)
  have hn0 : (0 : ℝ) ≤ n := Nat.cast_nonneg n
  norm_num [exThrown, exLobBodies]
  nlinarith

/-- The hypotheses of `C121_flight` and `C121_boxes`: the ball is thrown, a step is made, and then the user moves another body and puts a third ball on it. -/
example (shapes : Nat → CShape ℝ) (hs : ∀ i, (shapes i).bb.L ≤ (shapes i).bb.R ∧ (shapes i).bb.B ≤ (shapes i).bb.T) (t : Tick ℝ)
    (ht : t = ⟨1/60, [0], [0], fun _ _ => true, fun _ _ => true⟩) (ops' : List (WorldOp ℝ)) (ho : ops' = [.step t, .setBody 5 Body.blank, .addDyn 2]) :
    WLegal (exThrown true) (fun _ => none) (twoOps false ++ ops') ∧
    (∀ pre, pre <+: ops' → AllEasy (exThrown true) (exThrownFig true) (rosterAfter (rosterAfter (fun _ => none) (twoOps (K := ℝ) false)) pre)) ∧
    ∀ w, (World.init exLobBodies shapes).run realMth (exThrown true) (twoOps false) = some w → ((w.bodies 0).m ≠ (exThrown true).par.inf ∧ (w.bodies 0).idle ≠ (exThrown true).par.inf) ∧
      ((w.bodies 0).force = ⟨0, 0⟩ ∧ (w.bodies 0).torque = 0 ∧ (w.bodies 0).vBias = ⟨0, 0⟩ ∧ (w.bodies 0).wBias = 0) ∧ (∀ l ∈ w.joints, l.ia ≠ 0 ∧ l.ib ≠ 0) ∧
      Airborne realMth (exThrown true) 0 (1/60) (Untouched (exThrown true) (exThrownFig true) 0) (rosterAfter (fun _ => none) (twoOps (K := ℝ) false)) w ops' ∧
      Airborne realMth (exThrown true) 0 (1/60) (BoxesApart (exThrown true) 0) (rosterAfter (fun _ => none) (twoOps (K := ℝ) false)) w ops' := by
  have hc : realMth.cos 0 = 1 ∧ realMth.sin 0 = 0 := ⟨Real.cos_zero, Real.sin_zero⟩
  have hl0 : WLegal (exThrown true) (fun _ => none) (twoOps (K := ℝ) false) := by
    refine ⟨rfl, ?_, trivial⟩
    simp [WOk, rosterStep, Roster.set]
  have hro : ∀ i, rosterAfter (fun _ => none) (twoOps (K := ℝ) false) i = if i = 1 then some false else if i = 0 then some true else none := two_roster false
  have hok : WOk (exThrown true) (rosterAfter (fun _ => none) (twoOps (K := ℝ) false)) (.step t) := by
    rw [ht]
    refine ⟨by simp, fun i => ?_, fun j hj => ?_⟩
    · rw [hro]
      by_cases h1 : i = 1
      · subst h1; simp
      · by_cases h0 : i = 0 <;> simp [h1, h0]
    · rw [hro] at hj
      by_cases h1 : j = 1
      · subst h1; simp [exThrown]
      · rw [if_neg h1] at hj; split at hj <;> cases hj
  have hfig : ∀ i, i ≠ 1 → exThrownFig true i = .ball 1 ⟨0, 0⟩ := by intro i hi; simp [exThrownFig, hi]
  refine ⟨(legal_append _ _ _ _).2 ⟨hl0, ?_⟩, ?_, ?_⟩
  · rw [ho]
    refine ⟨hok, ⟨by norm_num [Rigid, Body.blank, Transform.identity], fun j hj => ?_⟩, by simp [WOk, rosterStep, hro], trivial⟩
    simp only [rosterStep, hro] at hj
    by_cases h1 : j = 1
    · subst h1; simp [exThrown]
    · rw [if_neg h1] at hj; split at hj <;> cases hj
  · intro pre hp i j hi hj hd hb
    have still : rosterAfter (rosterAfter (fun _ => none) (twoOps (K := ℝ) false)) pre 1 = some false := by
      rw [ho] at hp
      obtain ⟨q, hq⟩ := hp
      match pre, hq with
      | [], _ => exact hro 1
      | [x], h => simp only [List.cons_append, List.nil_append, List.cons.injEq] at h; rw [h.1]; exact hro 1
      | [x, y], h => simp only [List.cons_append, List.nil_append, List.cons.injEq] at h; rw [h.1, h.2.1]; exact hro 1
      | [x, y, z], h =>
        simp only [List.cons_append, List.nil_append, List.cons.injEq] at h; rw [h.1, h.2.1, h.2.2.1]
        show (Roster.set _ 2 (some true)) 1 = _
        simp only [Roster.set]; exact hro 1
      | x :: y :: z :: u :: l, h => simp at h
    by_cases h1 : i = 1
    · have h2 : j ≠ 1 := by rintro rfl; exact hb (by rw [h1])
      rw [hfig j h2, h1, show exThrownFig true 1 = .rod ⟨-9, -1⟩ ⟨9, -1⟩ (1/4) by simp [exThrownFig]]; exact trivial
    · rw [hfig i h1]
      by_cases h2 : j = 1
      · rw [h2, show exThrownFig true 1 = .rod ⟨-9, -1⟩ ⟨9, -1⟩ (1/4) by simp [exThrownFig]]; exact trivial
      · rw [hfig j h2]; exact trivial
  · intro w e
    obtain ⟨w0, e0, hu⟩ := run_upright realMth_lawful exLob_made.1 (twoOps false) _ _ (init_upright (exThrown true) exLobBodies shapes exLob_made.2 hs) hl0
    obtain rfl : w = w0 := Option.some.inj (e.symm.trans e0)
    obtain ⟨w1, w2, w3, w4⟩ := two_put _ _ _ _ _ e
    obtain ⟨hbu, hcur⟩ := begun_upright realMth_lawful exLob_made.1 hu t hok
    have h0 : t.dt ≠ 0 := by rw [ht]; norm_num
    obtain ⟨g1, g2, g3, g4, g5⟩ := step_frame realMth (exThrown true) t w h0
    have hb0 : ((w.begun realMth (exThrown true) t).bodies 0).tr = ⟨1, 0, 0, 1, 1/20, 136/15⟩ := by
      show ((SolverState.positions realMth t.dyn t.dt ⟨w.bodies, [], w.joints⟩).bodies 0).tr = _
      rw [w1, ht]
      norm_num [SolverState.positions, exLobBodies, Body.blank, Body.updatePosition, Body.setTransform, Body.mkTransform, Transform.transpose, V2.add, V2.scale, V2.zero, hc]
    have hb1 : ((w.begun realMth (exThrown true) t).bodies 1).tr = ⟨1, 0, 0, 1, 0, 0⟩ := by
      show ((SolverState.positions realMth t.dyn t.dt ⟨w.bodies, [], w.joints⟩).bodies 1).tr = _
      rw [w1, ht]
      norm_num [SolverState.positions, exLobBodies, Body.blank, Transform.identity]
    have air : ∀ P : Roster → World ℝ → Prop, P (rosterAfter (fun _ => none) (twoOps (K := ℝ) false)) (w.step realMth (exThrown true) t) →
        Airborne realMth (exThrown true) 0 (1/60) P (rosterAfter (fun _ => none) (twoOps (K := ℝ) false)) w ops' := by
      intro P hP
      rw [ho]
      refine ⟨⟨by rw [ht], by rw [ht]; exact List.mem_cons_self, hP⟩, fun _ _ => ⟨(by decide : (5 : Nat) ≠ 0), fun _ _ => ⟨trivial, fun _ _ => trivial⟩⟩⟩
    refine ⟨by rw [w1]; norm_num [exLobBodies, exThrown, Body.blank], by rw [w1]; simp [exLobBodies, Body.blank, V2.zero], by rw [w3]; simp, air _ ?_, air _ ?_⟩
    · have clear := high_clear (ρ := 1) (r := 1/4) (y := -1) (c := ⟨0, 0⟩) (a := ⟨-9, -1⟩) (b := ⟨9, -1⟩) (t := (⟨1, 0, 0, 1, 1/20, 136/15⟩ : Transform ℝ)) (u := ⟨1, 0, 0, 1, 0, 0⟩)
        (by norm_num) (by norm_num) (by norm_num [Transform.apply]) (by norm_num [Transform.apply]) (by norm_num [Transform.apply])
      have hr : ∀ i, rosterAfter (fun _ => none) (twoOps (K := ℝ) false) i ≠ none → i = 0 ∨ i = 1 := by
        intro i hi; rw [hro] at hi
        by_contra hcon
        rw [not_or] at hcon
        rw [if_neg hcon.2, if_neg hcon.1] at hi; exact hi rfl
      have f1 : exThrownFig true 1 = .rod ⟨-9, -1⟩ ⟨9, -1⟩ (1/4) := by simp [exThrownFig]
      have t0 : ((w.step realMth (exThrown true) t).bodies 0).tr = ⟨1, 0, 0, 1, 1/20, 136/15⟩ := by rw [(g5 0).2.2.2, hb0]
      have t1 : ((w.step realMth (exThrown true) t).bodies 1).tr = ⟨1, 0, 0, 1, 0, 0⟩ := by rw [(g5 1).2.2.2, hb1]
      rintro i j ⟨c1, c2, c3, -, c5, -, -, c8⟩ -
      rcases hr i c2 with rfl | rfl <;> rcases hr j c3 with rfl | rfl
      · exact absurd rfl c1
      · rw [hfig 0 (by decide), f1, show ((exThrown true).figs 0).body = 0 from rfl, show ((exThrown true).figs 1).body = 1 from rfl, t0, t1] at c8; exact absurd c8 clear.1
      · rw [hfig 0 (by decide), f1, show ((exThrown true).figs 0).body = 0 from rfl, show ((exThrown true).figs 1).body = 1 from rfl, t0, t1] at c8; exact absurd c8 clear.2
      · exact absurd rfl c1
    · have s0 := hcur 0 (by rw [hro]; simp)
      have s1 := hcur 1 (by rw [hro]; simp)
      rw [show ((exThrown true).figs 0).body = 0 from rfl, hb0] at s0
      rw [show ((exThrown true).figs 1).body = 1 from rfl, hb1] at s1
      have no : ¬ Overlap ((w.begun realMth (exThrown true) t).shapes 0).bb ((w.begun realMth (exThrown true) t).shapes 1).bb := by
        rintro ⟨q, ⟨-, -, x3, -⟩, ⟨-, -, -, x4⟩⟩
        rw [s0] at x3
        rw [s1] at x4
        norm_num [cachedShape, exThrown, exThrownFig, Figure.made, Cls.cache, Circle.cache, Circle.new, Segment.cache, Segment.new, Transform.apply, BB.forCircle, BB.forExtents] at x3 x4
        linarith
      have hr : ∀ i, rosterAfter (fun _ => none) (twoOps (K := ℝ) false) i ≠ none → i = 0 ∨ i = 1 := by
        intro i hi; rw [hro] at hi
        by_contra hcon
        rw [not_or] at hcon
        rw [if_neg hcon.2, if_neg hcon.1] at hi; exact hi rfl
      intro i j hi hj _ hb _
      rw [g2]
      rcases hr i hi with rfl | rfl <;> rcases hr j hj with rfl | rfl
      · exact absurd rfl hb
      · exact no
      · rintro ⟨q, h1, h2⟩; exact no ⟨q, h2, h1⟩
      · exact absurd rfl hb

end Cm
