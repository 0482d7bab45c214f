import Verif.Props.Groups
import Verif.Props.WorldContacts
import Verif.Spec.Float
/-! # C129: what rounding cannot spoil -/
set_option linter.unusedSectionVars false
set_option linter.unusedSimpArgs false
set_option linter.unusedVariables false

namespace Cm
open Spec
variable {K : Type} [Zero K] [One K] [Add K] [Sub K] [Mul K] [Div K] [Neg K] [NatCast K] [LinearOrder K] [Spec.Rounded K]

/-! ## Loops -/

theorem linkLoop_turn {α : Type} {P Q : α → Prop} (f : α → Body K → Body K → Body K × Body K × α) (hf : ∀ x a b, P x → Q (f x a b).2.2) (ls : List (Link α)) :
    ∀ bs, (∀ l ∈ ls, P l.it) → ∀ l ∈ (linkLoop f ls bs).2, Q l.it := by
  induction ls with
  | nil => intro bs _ l hl; exact absurd hl List.not_mem_nil
  | cons m ls ih =>
    intro bs h l hl
    simp only [linkLoop, List.mem_cons] at hl
    rcases hl with rfl | hl
    · exact hf _ _ _ (h m List.mem_cons_self)
    · exact ih _ (fun l hl => h l (List.mem_cons_of_mem _ hl)) l hl

/-- What holds of the arbiters and joints through the phases of the solver. -/
theorem solve_turn {P P1 : Arbiter K → Prop} {Q Q1 : Joint K → Prop} (M : Mth K) (inf slop cbias damping : K) (g : V2 K) (dyn : List Nat) (prevDT dt : K) (n : Nat) (hn : n ≠ 0)
    (p1 : ∀ (x : Arbiter K) a b, P x → P (x.preStep a b dt slop (1 - M.pow cbias dt)))
    (p2 : ∀ (x : Arbiter K) a b, P x → P (x.applyImpulse a b).2.2) (p3 : ∀ (x : Arbiter K) a b, P x → P1 (x.applyImpulse a b).2.2)
    (q0 : Joint K → Prop) (q1 : ∀ (x : Joint K) a b, q0 x → Q (x.preStep M inf a b dt).2.2)
    (q2 : ∀ (x : Joint K) a b, Q x → Q (x.applyImpulse M a b dt).2.2) (q3 : ∀ (x : Joint K) a b, Q x → Q1 (x.applyImpulse M a b dt).2.2)
    (s : SolverState K) (hs : ∀ l ∈ s.arbs, P l.it) (hj : ∀ l ∈ s.joints, q0 l.it) :
    (∀ l ∈ (s.solve M inf slop cbias damping g dyn prevDT dt n).arbs, P1 l.it) ∧ ∀ l ∈ (s.solve M inf slop cbias damping g dyn prevDT dt n).joints, Q1 l.it := by
  have h1 : (∀ l ∈ (s.preStep M inf slop cbias dt).arbs, P l.it) ∧ ∀ l ∈ (s.preStep M inf slop cbias dt).joints, Q l.it :=
    ⟨linkLoop_turn _ (fun x a b h => p1 x a b h) _ _ hs, linkLoop_turn _ (fun x a b h => q1 x a b h) _ _ hj⟩
  unfold SolverState.solve
  generalize s.preStep M inf slop cbias dt = s1 at h1 ⊢
  have h2 : (∀ l ∈ ((s1.velocities M inf damping g dyn dt).cached prevDT dt).arbs, P l.it) ∧
      ∀ l ∈ ((s1.velocities M inf damping g dyn dt).cached prevDT dt).joints, Q l.it :=
    ⟨linkLoop_turn (P := P) (Q := P) _ (fun x a b h => h) _ _ h1.1, linkLoop_turn (P := Q) (Q := Q) _ (fun x a b h => h) _ _ h1.2⟩
  generalize (s1.velocities M inf damping g dyn dt).cached prevDT dt = s3 at h2 ⊢
  obtain ⟨n, rfl⟩ := Nat.exists_eq_succ_of_ne_zero hn
  rw [Nat.succ_eq_add_one, Function.iterate_succ', Function.comp]
  have h3 : (∀ l ∈ ((SolverState.iterate M dt)^[n] s3).arbs, P l.it) ∧ ∀ l ∈ ((SolverState.iterate M dt)^[n] s3).joints, Q l.it := by
    clear hn h1
    induction n generalizing s3 with
    | zero => exact h2
    | succ n ih =>
      rw [Function.iterate_succ_apply]
      exact ih _ ⟨linkLoop_turn _ (fun x a b h => p2 x a b h) _ _ h2.1, linkLoop_turn _ (fun x a b h => q2 x a b h) _ _ h2.2⟩
  generalize (SolverState.iterate M dt)^[n] s3 = s4 at h3
  exact ⟨linkLoop_turn _ (fun x a b h => p3 x a b h) _ _ h3.1, linkLoop_turn _ (fun x a b h => q3 x a b h) _ _ h3.2⟩

/-! ## Contacts push, friction stays in its cone, joints stay within their strength -/

namespace Spec
/-- The impulse of a joint is at most its greatest force times the time; a slide joint and a rotary limit only pull or push inwards. The joints that limit the length of a
vector, the ratchet, which divides, and the springs are not among them. -/
def Limited (dt : K) : Joint K → Prop
  | .pin j => -(j.maxForce * dt) ≤ j.jnAcc ∧ j.jnAcc ≤ j.maxForce * dt
  | .gear j => -(j.maxForce * dt) ≤ j.jAcc ∧ j.jAcc ≤ j.maxForce * dt
  | .motor j => -(j.maxForce * dt) ≤ j.jAcc ∧ j.jAcc ≤ j.maxForce * dt
  | .slide j => j.n ≠ V2.zero → -(j.maxForce * dt) ≤ j.jnAcc ∧ j.jnAcc ≤ 0
  | .rotaryLimit j => (j.bias < 0 → 0 ≤ j.jAcc ∧ j.jAcc ≤ j.maxForce * dt) ∧ (0 < j.bias → -(j.maxForce * dt) ≤ j.jAcc ∧ j.jAcc ≤ 0) ∧ (j.bias = 0 → j.jAcc = 0)
  | _ => True

/-- The greatest force of a joint is not negative. -/
def Strong : Joint K → Prop
  | .pin j => 0 ≤ j.maxForce
  | .gear j => 0 ≤ j.maxForce
  | .motor j => 0 ≤ j.maxForce
  | .slide j => 0 ≤ j.maxForce
  | .rotaryLimit j => 0 ≤ j.maxForce
  | _ => True
end Spec

theorem neg_le_of_nonneg {x : K} (h : 0 ≤ x) : -x ≤ x := by
  have := Rounded.neg_le_neg 0 x h
  rw [Rounded.neg_zero] at this
  exact this.trans h

theorem clamp_amid {f lo hi : K} (h : lo ≤ hi) : lo ≤ clamp f lo hi ∧ clamp f lo hi ≤ hi := by
  unfold clamp
  split
  · rename_i h1; exact ⟨le_min (le_of_lt h1) h, min_le_right _ _⟩
  · exact ⟨le_min le_rfl h, min_le_right _ _⟩

theorem joint_limited (M : Mth K) {dt : K} (hdt : 0 ≤ dt) (jt : Joint K) (a b : Body K)
    (h : Strong jt ∧ ∀ j, jt = .rotaryLimit j → j.bias = 0 → j.jAcc = 0) :
    (Strong (jt.applyImpulse M a b dt).2.2 ∧ ∀ j, (jt.applyImpulse M a b dt).2.2 = .rotaryLimit j → j.bias = 0 → j.jAcc = 0) ∧ Limited dt (jt.applyImpulse M a b dt).2.2 := by
  obtain ⟨hs, hr⟩ := h
  cases jt with
  | pin j =>
    refine ⟨⟨hs, fun _ e => by cases e⟩, ?_⟩
    exact clamp_amid (neg_le_of_nonneg (Rounded.mul_nonneg _ _ hs hdt))
  | gear j =>
    refine ⟨⟨hs, fun _ e => by cases e⟩, ?_⟩
    exact clamp_amid (neg_le_of_nonneg (Rounded.mul_nonneg _ _ hs hdt))
  | motor j =>
    refine ⟨⟨hs, fun _ e => by cases e⟩, ?_⟩
    exact clamp_amid (neg_le_of_nonneg (Rounded.mul_nonneg _ _ hs hdt))
  | slide j =>
    simp only [Joint.applyImpulse, SlideJoint.applyImpulse]
    split
    · rename_i h0; exact ⟨⟨hs, fun _ e => by cases e⟩, fun h => absurd h0 h⟩
    · refine ⟨⟨hs, fun _ e => by cases e⟩, fun _ => ?_⟩
      dsimp only
      rw [Rounded.neg_mul]
      refine clamp_amid ?_
      have := Rounded.neg_le_neg 0 _ (Rounded.mul_nonneg _ _ (show 0 ≤ j.maxForce from hs) hdt)
      rwa [Rounded.neg_zero] at this
  | rotaryLimit j =>
    have h0 := hr j rfl
    have hm : 0 ≤ j.maxForce * dt := Rounded.mul_nonneg _ _ hs hdt
    have hm' : -(j.maxForce * dt) ≤ 0 := by
      have := Rounded.neg_le_neg 0 _ hm
      rwa [Rounded.neg_zero] at this
    simp only [Joint.applyImpulse, RotaryLimitJoint.applyImpulse]
    split
    · rename_i hb
      exact ⟨⟨hs, fun k e => by cases e; exact h0⟩, fun h => absurd hb h.ne, fun h => absurd hb h.ne', fun _ => h0 hb⟩
    · rename_i hb
      refine ⟨⟨hs, fun k e hk => by cases e; exact absurd hk hb⟩, fun h => ?_, fun h => ?_, fun h => absurd h hb⟩
      · dsimp only; rw [if_pos h]; exact clamp_amid hm
      · dsimp only; rw [if_neg (not_lt.2 h.le)]; exact clamp_amid hm'
  | pivot j => exact ⟨⟨trivial, fun _ e => by cases e⟩, trivial⟩
  | groove j => exact ⟨⟨trivial, fun _ e => by cases e⟩, trivial⟩
  | ratchet j =>
    simp only [Joint.applyImpulse, RatchetJoint.applyImpulse]
    split <;> exact ⟨⟨trivial, fun _ e => by cases e⟩, trivial⟩
  | spring j => exact ⟨⟨trivial, fun _ e => by cases e⟩, trivial⟩
  | rotarySpring j => exact ⟨⟨trivial, fun _ e => by cases e⟩, trivial⟩

theorem joint_strong (M : Mth K) (inf : K) (dt : K) (jt : Joint K) (a b : Body K) (h : Strong jt) :
    Strong (jt.preStep M inf a b dt).2.2 ∧ ∀ j, (jt.preStep M inf a b dt).2.2 = .rotaryLimit j → j.bias = 0 → j.jAcc = 0 := by
  cases jt with
  | rotaryLimit j =>
    refine ⟨h, fun k e hk => ?_⟩
    simp only [Joint.preStep, Joint.rotaryLimit.injEq] at e
    subst e
    simp only [RotaryLimitJoint.preStep] at hk ⊢
    rw [if_pos hk]
  | _ => exact ⟨h, fun _ e => by cases e⟩

/-- **C129.** After a step of any simulation, in any arithmetic that rounds, no joint of these kinds has pushed or pulled more than its greatest force allows, and a slide joint or a
rotary limit that is at its limit only inwards. -/
theorem C129_joints (M : Mth K) (sc : Scene K) (inp : Tick K) (w : World K) (h0 : inp.dt ≠ 0) (hdt : 0 ≤ inp.dt) (hn : sc.par.iterations ≠ 0) (hs : ∀ l ∈ w.joints, Strong l.it) :
    ∀ l ∈ (w.step M sc inp).joints, Strong l.it ∧ Limited inp.dt l.it := by
  obtain ⟨-, e, -⟩ := C111_step M sc inp w ⟨w.bodies, [], w.joints⟩ rfl rfl
  rw [e]
  unfold SolverState.step
  rw [if_neg h0]
  have := (solve_turn (P := fun _ => True) (P1 := fun _ => True) (Q := fun jt => Strong jt ∧ ∀ j, jt = .rotaryLimit j → j.bias = 0 → j.jAcc = 0)
    (Q1 := fun jt => Strong jt ∧ Limited inp.dt jt) M sc.par.inf sc.par.slop sc.par.cbias sc.par.damping sc.par.gravity inp.dyn w.prevDT inp.dt sc.par.iterations hn
    (fun _ _ _ _ => trivial) (fun _ _ _ _ => trivial) (fun _ _ _ _ => trivial) Strong (fun x a b h => joint_strong M sc.par.inf inp.dt x a b h)
    (fun x a b h => (joint_limited M hdt x a b h).1) (fun x a b h => ⟨(joint_limited M hdt x a b h).1.1, (joint_limited M hdt x a b h).2⟩)
    { SolverState.positions M inp.dyn inp.dt ⟨w.bodies, [], w.joints⟩ with arbs := collisions M sc inp w } (fun _ _ => trivial) hs).2
  exact this

/-! ## Damping only slows -/

theorem mul_unit_between {x d : K} (h0 : 0 ≤ d) (h1 : d ≤ 1) (hx : 0 ≤ x) : 0 ≤ x * d ∧ x * d ≤ x := by
  refine ⟨Rounded.mul_nonneg _ _ hx h0, ?_⟩
  have := Rounded.mul_le_mul d 1 x hx h1
  rw [Rounded.mul_comm d, Rounded.mul_comm 1, Rounded.mul_one] at this
  exact this

theorem mul_unit_fabs {x d : K} (h0 : 0 ≤ d) (h1 : d ≤ 1) : fabs (x * d) ≤ fabs x := by
  unfold fabs
  rcases le_total 0 x with hx | hx
  · obtain ⟨a, b⟩ := mul_unit_between h0 h1 hx
    exact max_le (b.trans (le_max_left _ _)) ((neg_le_of_nonneg a).trans (b.trans (le_max_left _ _)))
  · have hx' : 0 ≤ -x := by
      have := Rounded.neg_le_neg _ _ hx
      rwa [Rounded.neg_zero] at this
    obtain ⟨a, b⟩ := mul_unit_between h0 h1 hx'
    rw [Rounded.neg_mul] at a b
    have h2 : x * d ≤ -(x * d) := by
      have := neg_le_of_nonneg a
      rwa [Rounded.neg_neg] at this
    exact max_le ((h2.trans b).trans (le_max_right _ _)) (b.trans (le_max_right _ _))

namespace Spec
/-- The body is not faster in any direction than the other, nor does it spin faster. -/
def NotFaster (a b : Body K) : Prop := fabs b.v.x ≤ fabs a.v.x ∧ fabs b.v.y ≤ fabs a.v.y ∧ fabs b.w ≤ fabs a.w
end Spec

/-- **C129.** In any arithmetic that rounds, a body that nothing pushes is never made faster by a step, if the damping over the step is between nought and one. -/
theorem C129_slower (M : Mth K) (sc : Scene K) (inp : Tick K) (w : World K) (h0 : inp.dt ≠ 0) (k : Nat) (hj : ∀ l ∈ w.joints, l.ia ≠ k ∧ l.ib ≠ k)
    (hc : ∀ l ∈ collisions M sc inp w, l.ia ≠ k ∧ l.ib ≠ k) (hg : sc.par.gravity = V2.zero) (hf : (w.bodies k).force = V2.zero ∧ (w.bodies k).torque = 0)
    (hd : 0 ≤ M.pow sc.par.damping inp.dt ∧ M.pow sc.par.damping inp.dt ≤ 1) :
    NotFaster (w.bodies k) ((w.step M sc inp).bodies k) ∧ ((w.step M sc inp).bodies k).force = V2.zero ∧ ((w.step M sc inp).bodies k).torque = 0 := by
  rw [C115_alone M sc inp w h0 k hj hc]
  have same : NotFaster (w.bodies k) (w.bodies k) := ⟨le_rfl, le_rfl, le_rfl⟩
  split
  · unfold Body.updateVelocity
    split
    · exact ⟨⟨le_rfl, le_rfl, le_rfl⟩, hf.1, hf.2⟩
    · refine ⟨?_, rfl, rfl⟩
      have hv : ((w.bodies k).updatePosition M inp.dt).force = V2.zero := hf.1
      have ht : ((w.bodies k).updatePosition M inp.dt).torque = 0 := hf.2
      simp only [NotFaster, hv, ht, hg, V2.add, V2.scale, V2.zero, Rounded.zero_mul, Rounded.add_zero]
      exact ⟨mul_unit_fabs hd.1 hd.2, mul_unit_fabs hd.1 hd.2, mul_unit_fabs hd.1 hd.2⟩
  · exact ⟨same, hf.1, hf.2⟩

/-! ## Rest is rest -/

namespace Spec
/-- Nothing moves the body, and its transform is the one its place gives. -/
structure Quiescent (M : Mth K) (b : Body K) : Prop where
  v : b.v = V2.zero
  w : b.w = 0
  vBias : b.vBias = V2.zero
  wBias : b.wBias = 0
  force : b.force = V2.zero
  torque : b.torque = 0
  tr : b.tr = Body.mkTransform M b.cog b.p b.angle

/-- The contacts do not overlap by more than the slop, as computed, and carry nothing; the surfaces do not move. -/
structure Slack (slop : K) (a b : Body K) (arb : Arbiter K) : Prop where
  surface : arb.surfaceVr = V2.zero
  none : ∀ c ∈ arb.contacts, c.jnAcc = 0 ∧ c.jtAcc = 0
  apart : ∀ c ∈ arb.contacts, 0 ≤ ((c.r2.sub c.r1).add (b.p.sub a.p)).dot arb.normal + slop

/-- Where on the groove the joint holds the other body, from the centre of the first: at an end of the groove or between. -/
def grooveFoot (a b : Body K) (j : GrooveJoint K) : V2 K :=
  let n := a.tr.applyVector j.grooveN
  let along := (b.p.add (anchorOffset b j.anchorB)).cross n
  if along ≤ (a.tr.apply j.grooveA).cross n then (a.tr.apply j.grooveA).sub a.p
  else if along ≥ (a.tr.apply j.grooveB).cross n then (a.tr.apply j.grooveB).sub a.p
  else ((n.perp.scale (-along)).add (n.scale ((a.tr.apply j.grooveA).dot n))).sub a.p

/-- The joint, as computed, is where it should be, and carries nothing. -/
def SlackJoint (M : Mth K) (a b : Body K) : Joint K → Prop
  | .pin j => j.jnAcc = 0 ∧ 0 ≤ j.maxBias ∧ 0 ≤ j.maxForce ∧ (b.p.add ((anchorOffset b j.anchorB).sub (a.p.add (anchorOffset a j.anchorA)))).mag M = j.dist
  | .slide j => ((b.p.add (anchorOffset b j.anchorB)).sub (a.p.add (anchorOffset a j.anchorA))).mag M ≤ j.max ∧
      j.min ≤ ((b.p.add (anchorOffset b j.anchorB)).sub (a.p.add (anchorOffset a j.anchorA))).mag M
  | .pivot j => j.jAcc = V2.zero ∧ 0 ≤ j.maxBias ∧ 0 ≤ j.maxForce ∧ (b.p.add (anchorOffset b j.anchorB)).sub (a.p.add (anchorOffset a j.anchorA)) = V2.zero
  | .groove j => j.jAcc = V2.zero ∧ 0 ≤ j.maxBias ∧ 0 ≤ j.maxForce ∧ (b.p.add (anchorOffset b j.anchorB)).sub (a.p.add (grooveFoot a b j)) = V2.zero
  | .gear j => j.jAcc = 0 ∧ 0 ≤ j.maxBias ∧ 0 ≤ j.maxForce ∧ b.angle * j.ratio - a.angle = j.phase
  | .ratchet j => 0 ≤ j.maxBias ∧ (j.angle - (b.angle - a.angle)) * j.ratchet ≤ 0 ∧
      (M.floor ((b.angle - a.angle - j.phase) / j.ratchet) * j.ratchet + j.phase - (b.angle - a.angle)) * j.ratchet ≤ 0
  | .rotaryLimit j => 0 ≤ j.maxBias ∧ b.angle - a.angle ≤ j.max ∧ j.min ≤ b.angle - a.angle
  | .motor j => j.jAcc = 0 ∧ 0 ≤ j.maxForce ∧ j.rate = 0
  | .spring j => j.forceFn (((b.p.add (anchorOffset b j.anchorB)).sub (a.p.add (anchorOffset a j.anchorA))).mag M) = 0
  | .rotarySpring j => j.torqueFn (a.angle - b.angle) = 0

/-- What the preparation leaves of a joint that is where it should be. -/
def Silent : Joint K → Prop
  | .pin j => j.bias = 0
  | .slide j => j.n = V2.zero ∧ j.jnAcc = 0
  | .pivot j => j.bias = V2.zero
  | .groove j => j.bias = V2.zero
  | .gear j => j.bias = 0
  | .ratchet j => j.bias = 0 ∧ j.jAcc = 0
  | .rotaryLimit j => j.bias = 0 ∧ j.jAcc = 0
  | .motor _ => True
  | .spring j => j.targetVrn = 0
  | .rotarySpring j => j.targetWrn = 0
end Spec

theorem clamp_nought {m : K} (hm : 0 ≤ m) : clamp 0 (-m) m = 0 := by
  have h : -m ≤ 0 := by
    have := Rounded.neg_le_neg 0 m hm
    rwa [Rounded.neg_zero] at this
  unfold clamp
  split
  · exact min_eq_left hm
  · rename_i h1
    rw [min_eq_left (neg_le_of_nonneg hm)]
    exact le_antisymm h (not_lt.1 h1)

theorem v2_zero_x : (V2.zero : V2 K).x = 0 := rfl
theorem v2_zero_y : (V2.zero : V2 K).y = 0 := rfl

theorem applyImpulses_nought (a b : Body K) (r1 r2 : V2 K) : applyImpulses a b r1 r2 V2.zero = (a, b) := by
  simp only [applyImpulses, v2_zero_x, v2_zero_y, Rounded.neg_zero, Rounded.zero_mul, Rounded.mul_zero, Rounded.sub_self, Rounded.add_zero]

theorem applyBias_none (a b : Body K) (r1 r2 : V2 K) : applyBiasImpulses a b r1 r2 V2.zero = (a, b) := by
  simp only [applyBiasImpulses, v2_zero_x, v2_zero_y, Rounded.neg_zero, Rounded.zero_mul, Rounded.mul_zero, Rounded.sub_self, Rounded.add_zero]

theorem spin_none (a b : Body K) (q : K) : spin a b 0 q = (a, b) := by
  simp only [spin, Rounded.zero_mul, Rounded.sub_zero, Rounded.add_zero]

theorem scale_none (n : V2 K) : n.scale 0 = V2.zero := by simp only [V2.scale, Rounded.mul_zero, V2.zero]
theorem zero_scale (k : K) : (V2.zero : V2 K).scale k = V2.zero := by simp only [V2.scale, v2_zero_x, v2_zero_y, Rounded.zero_mul, V2.zero]
theorem zero_add_v2 (n : V2 K) : (V2.zero : V2 K).add n = n := by simp only [V2.add, v2_zero_x, v2_zero_y, Rounded.zero_add]
theorem add_zero_v2 (n : V2 K) : n.add V2.zero = n := by simp only [V2.add, v2_zero_x, v2_zero_y, Rounded.add_zero]
theorem sub_self_v2 (n : V2 K) : n.sub n = V2.zero := by simp only [V2.sub, Rounded.sub_self, V2.zero]
theorem zero_dot_v2 (n : V2 K) : (V2.zero : V2 K).dot n = 0 := by simp only [V2.dot, v2_zero_x, v2_zero_y, Rounded.zero_mul, Rounded.add_zero]
theorem rotate_zero_v2 (n : V2 K) : n.rotate V2.zero = V2.zero := by simp only [V2.rotate, v2_zero_x, v2_zero_y, Rounded.mul_zero, Rounded.add_zero, Rounded.sub_zero, V2.zero]
theorem transform_zero_v2 (m : Mat2x2 K) : m.transform V2.zero = V2.zero := by simp only [Mat2x2.transform, v2_zero_x, v2_zero_y, Rounded.zero_mul, Rounded.add_zero, V2.zero]
theorem project_zero_v2 (n : V2 K) : (V2.zero : V2 K).project n = V2.zero := by simp only [V2.project, zero_dot_v2, Rounded.zero_div, scale_none]
theorem clampMag_zero_v2 (M : Mth K) {l : K} (hl : 0 ≤ l) : (V2.zero : V2 K).clampMag M l = V2.zero := by
  unfold V2.clampMag
  rw [zero_dot_v2, if_neg (not_lt.2 (Rounded.mul_nonneg _ _ hl hl))]

theorem relative_rest (M : Mth K) {a b : Body K} (ha : Quiescent M a) (hb : Quiescent M b) (r1 r2 : V2 K) : relativeVelocity a b r1 r2 = V2.zero := by
  simp only [relativeVelocity, ha.v, ha.w, hb.v, hb.w, scale_none, add_zero_v2, sub_self_v2]

theorem updateVelocity_rest (M : Mth K) (inf d dt : K) {b : Body K} (hb : Quiescent M b) : b.updateVelocity inf V2.zero d dt = b := by
  unfold Body.updateVelocity
  split
  · rfl
  · simp only [hb.v, hb.w, hb.force, hb.torque, zero_scale, add_zero_v2, Rounded.zero_mul, Rounded.add_zero]
    have h1 := hb.v; have h2 := hb.w; have h3 := hb.force; have h4 := hb.torque
    cases b
    simp_all only

theorem updatePosition_rest (M : Mth K) (dt : K) {b : Body K} (hb : Quiescent M b) : b.updatePosition M dt = b := by
  unfold Body.updatePosition Body.setTransform
  simp only [hb.v, hb.w, hb.vBias, hb.wBias, zero_scale, add_zero_v2, Rounded.zero_mul, Rounded.add_zero]
  have h1 := hb.vBias; have h2 := hb.wBias; have h3 := hb.tr; have h4 := hb.v; have h5 := hb.w
  cases b
  simp_all only

/-! ### Contacts -/

namespace Spec
/-- What the preparation leaves of slack contacts. -/
structure Mute (arb : Arbiter K) : Prop where
  surface : arb.surfaceVr = V2.zero
  none : ∀ c ∈ arb.contacts, c.jnAcc = 0 ∧ c.jtAcc = 0 ∧ c.jBias = 0 ∧ c.bias = 0 ∧ c.bounce = 0
end Spec

theorem preStep_mute (M : Mth K) {a b : Body K} (ha : Quiescent M a) (hb : Quiescent M b) (slop dt c : K) {arb : Arbiter K} (h : Slack slop a b arb) : Mute (arb.preStep a b dt slop c) := by
  refine ⟨h.surface, ?_⟩
  intro x hx
  simp only [Arbiter.preStep, List.mem_map] at hx
  obtain ⟨y, hy, rfl⟩ := hx
  refine ⟨(h.none y hy).1, (h.none y hy).2, rfl, ?_, ?_⟩
  · show -c * min 0 _ / dt = 0
    rw [min_eq_left (h.apart y hy), Rounded.mul_zero, Rounded.zero_div]
  · show normalRelativeVelocity a b _ _ _ * _ = 0
    rw [normalRelativeVelocity, relative_rest M ha hb, zero_dot_v2, Rounded.zero_mul]

theorem contactStep_mute (M : Mth K) {a b : Body K} (ha : Quiescent M a) (hb : Quiescent M b) (n : V2 K) (u : K) {c : Contact K}
    (h : c.jnAcc = 0 ∧ c.jtAcc = 0 ∧ c.jBias = 0 ∧ c.bias = 0 ∧ c.bounce = 0) : Arbiter.contactStep n V2.zero u a b c = (a, b, c) := by
  obtain ⟨h1, h2, h3, h4, h5⟩ := h
  have hc : clamp (0 : K) 0 0 = 0 := by have := clamp_nought (le_refl (0 : K)); rwa [Rounded.neg_zero] at this
  have hz : (⟨0, 0⟩ : V2 K) = V2.zero := rfl
  simp only [Arbiter.contactStep, relative_rest M ha hb, ha.vBias, ha.wBias, hb.vBias, hb.wBias, h1, h2, h3, h4, h5, scale_none, add_zero_v2, sub_self_v2, zero_dot_v2, Rounded.sub_self,
    Rounded.add_zero, Rounded.zero_mul, Rounded.neg_zero, max_self, Rounded.mul_zero, hc, applyBias_none, applyImpulses_nought, hz, rotate_zero_v2]
  cases c
  simp_all only

theorem impulse_mute (M : Mth K) {a b : Body K} (ha : Quiescent M a) (hb : Quiescent M b) {arb : Arbiter K} (h : Mute arb) : arb.applyImpulse a b = (a, b, arb) := by
  unfold Arbiter.applyImpulse
  rw [h.surface]
  have : Arbiter.impulseLoop arb.normal V2.zero arb.u arb.contacts a b = (a, b, arb.contacts) := by
    have hn := h.none
    generalize arb.contacts = l at hn
    induction l with
    | nil => rfl
    | cons c cs ih =>
      simp only [Arbiter.impulseLoop, contactStep_mute M ha hb _ _ (hn c (by simp)), ih fun c hc => hn c (by simp [hc])]
  rw [this]
  have := h.surface
  cases arb
  simp_all only

theorem cached_mute {a b : Body K} (d : K) {arb : Arbiter K} (h : Mute arb) : arb.applyCachedImpulse a b d = (a, b) := by
  unfold Arbiter.applyCachedImpulse
  split
  · rfl
  · have hn := h.none
    generalize arb.contacts = l at hn
    induction l with
    | nil => rfl
    | cons c cs ih =>
      have hz : (⟨0, 0⟩ : V2 K) = V2.zero := rfl
      simp only [Arbiter.cachedLoop, (hn c (by simp)).1, (hn c (by simp)).2.1, hz, rotate_zero_v2, zero_scale, applyImpulses_nought]
      exact ih fun c hc => hn c (by simp [hc])

/-! ### Joints -/

theorem bias_nought (c dt : K) {m : K} (hm : 0 ≤ m) : clamp (-c * 0 / dt) (-m) m = 0 := by
  rw [Rounded.mul_zero, Rounded.zero_div, clamp_nought hm]

theorem joint_prepared (M : Mth K) (inf dt : K) {a b : Body K} {jt : Joint K} (h : SlackJoint M a b jt) :
    ∃ x, jt.preStep M inf a b dt = (a, b, x) ∧ SlackJoint M a b x ∧ Silent x := by
  cases jt with
  | pin j =>
    obtain ⟨h1, h2, h3, h4⟩ := h
    refine ⟨_, rfl, ⟨h1, h2, h3, h4⟩, ?_⟩
    show clamp _ _ _ = 0
    rw [h4, Rounded.sub_self]
    exact bias_nought _ _ h2
  | slide j =>
    refine ⟨_, rfl, h, ?_⟩
    obtain ⟨h1, h2⟩ := h
    simp only [Silent, SlideJoint.preStep, gt_iff_lt, if_neg (not_lt.2 h1), if_neg (not_lt.2 h2), and_self]
  | pivot j =>
    obtain ⟨h1, h2, h3, h4⟩ := h
    refine ⟨_, rfl, ⟨h1, h2, h3, h4⟩, ?_⟩
    show V2.clampMag M _ _ = V2.zero
    rw [h4, zero_scale, clampMag_zero_v2 M h2]
  | groove j =>
    obtain ⟨h1, h2, h3, h4⟩ := h
    refine ⟨_, rfl, ⟨h1, h2, h3, h4⟩, ?_⟩
    show V2.clampMag M _ _ = V2.zero
    have : (b.p.add (anchorOffset b j.anchorB)).sub (a.p.add (j.preStep M a b dt).r1) = V2.zero := by
      have e : (j.preStep M a b dt).r1 = grooveFoot a b j := by
        simp only [GrooveJoint.preStep, grooveFoot]
        split
        · rfl
        · split <;> rfl
      rw [e]; exact h4
    simp only [GrooveJoint.preStep] at this
    rw [this, zero_scale, clampMag_zero_v2 M h2]
  | gear j =>
    obtain ⟨h1, h2, h3, h4⟩ := h
    refine ⟨_, rfl, ⟨h1, h2, h3, h4⟩, ?_⟩
    show clamp _ _ _ = 0
    rw [h4, Rounded.sub_self]
    exact bias_nought _ _ h2
  | ratchet j =>
    obtain ⟨h1, h2, h3⟩ := h
    have hb : clamp (-(biasCoef M j.errorBias dt) * 0 / dt) (-j.maxBias) j.maxBias = 0 := bias_nought _ _ h1
    refine ⟨_, rfl, ?_⟩
    simp only [SlackJoint, Silent, RatchetJoint.preStep, gt_iff_lt, if_neg (not_lt.2 h2), hb, if_true, and_self, and_true]
    exact ⟨h1, h3⟩
  | rotaryLimit j =>
    obtain ⟨h1, h2, h3⟩ := h
    have hb : clamp (-(biasCoef M j.errorBias dt) * 0 / dt) (-j.maxBias) j.maxBias = 0 := bias_nought _ _ h1
    refine ⟨_, rfl, ⟨h1, h2, h3⟩, ?_⟩
    simp only [Silent, RotaryLimitJoint.preStep, gt_iff_lt, if_neg (not_lt.2 h2), if_neg (not_lt.2 h3), hb, if_true, and_self]
  | motor j => exact ⟨_, rfl, h, trivial⟩
  | spring j =>
    have h' : j.forceFn (((b.p.add (anchorOffset b j.anchorB)).sub (a.p.add (anchorOffset a j.anchorA))).mag M) = 0 := h
    refine ⟨.spring (j.preStep M inf a b dt).2.2, ?_, h, rfl⟩
    simp only [Joint.preStep, DampedSpring.preStep, h', Rounded.zero_mul, scale_none, applyImpulses_nought]
  | rotarySpring j =>
    have h' : j.torqueFn (a.angle - b.angle) = 0 := h
    refine ⟨.rotarySpring (j.preStep M a b dt).2.2, ?_, h, rfl⟩
    simp only [Joint.preStep, DampedRotarySpring.preStep, h', Rounded.zero_mul, Rounded.sub_zero, Rounded.add_zero]

theorem joint_cached_still (M : Mth K) {a b : Body K} (d : K) {jt : Joint K} (h : SlackJoint M a b jt) (hs : Silent jt) : jt.applyCached a b d = (a, b) := by
  cases jt with
  | pin j => simp only [Joint.applyCached, PinJoint.applyCached, h.1, Rounded.zero_mul, scale_none, applyImpulses_nought]
  | slide j => simp only [Joint.applyCached, SlideJoint.applyCached, hs.2, Rounded.zero_mul, scale_none, applyImpulses_nought]
  | pivot j => simp only [Joint.applyCached, PivotJoint.applyCached, h.1, zero_scale, applyImpulses_nought]
  | groove j => simp only [Joint.applyCached, GrooveJoint.applyCached, h.1, zero_scale, applyImpulses_nought]
  | gear j => simp only [Joint.applyCached, GearJoint.applyCached, h.1, Rounded.zero_mul, spin_none]
  | ratchet j => simp only [Joint.applyCached, RatchetJoint.applyCached, hs.2, Rounded.zero_mul, spin_none]
  | rotaryLimit j => simp only [Joint.applyCached, RotaryLimitJoint.applyCached, hs.2, Rounded.zero_mul, spin_none]
  | motor j => simp only [Joint.applyCached, SimpleMotor.applyCached, h.1, Rounded.zero_mul, spin_none]
  | spring j => rfl
  | rotarySpring j => rfl

theorem joint_still (M : Mth K) {a b : Body K} (ha : Quiescent M a) (hb : Quiescent M b) {dt : K} (hdt : 0 ≤ dt) {jt : Joint K} (h : SlackJoint M a b jt) (hs : Silent jt) :
    jt.applyImpulse M a b dt = (a, b, jt) := by
  cases jt with
  | pin j =>
    have h1 := h.1; have hs' : j.bias = 0 := hs
    simp only [Joint.applyImpulse, PinJoint.applyImpulse, normalRelativeVelocity, relative_rest M ha hb, zero_dot_v2, h1, hs', Rounded.sub_self, Rounded.zero_mul, Rounded.add_zero,
      clamp_nought (Rounded.mul_nonneg _ _ h.2.2.1 hdt), scale_none, applyImpulses_nought]
    cases j
    dsimp only at h1 hs'
    subst h1
    subst hs'
    rfl
  | slide j => simp only [Joint.applyImpulse, SlideJoint.applyImpulse, hs.1, if_true]
  | pivot j =>
    have h1 := h.1; have hs' : j.bias = V2.zero := hs
    simp only [Joint.applyImpulse, PivotJoint.applyImpulse, relative_rest M ha hb, hs', sub_self_v2, transform_zero_v2, h1, add_zero_v2, clampMag_zero_v2 M (Rounded.mul_nonneg _ _ h.2.2.1 hdt),
      applyImpulses_nought]
    cases j
    dsimp only at h1 hs'
    subst h1
    subst hs'
    rfl
  | groove j =>
    have h1 := h.1; have hs' : j.bias = V2.zero := hs
    simp only [Joint.applyImpulse, GrooveJoint.applyImpulse, GrooveJoint.grooveConstrain, relative_rest M ha hb, hs', sub_self_v2, transform_zero_v2, h1, add_zero_v2, project_zero_v2, ite_self,
      clampMag_zero_v2 M (Rounded.mul_nonneg _ _ h.2.2.1 hdt), applyImpulses_nought]
    cases j
    dsimp only at h1 hs'
    subst h1
    subst hs'
    rfl
  | gear j =>
    have h1 := h.1; have hs' : j.bias = 0 := hs
    simp only [Joint.applyImpulse, GearJoint.applyImpulse, ha.w, hb.w, h1, hs', Rounded.sub_self, Rounded.zero_mul, Rounded.add_zero, clamp_nought (Rounded.mul_nonneg _ _ h.2.2.1 hdt), spin_none]
    cases j
    dsimp only at h1 hs'
    subst h1
    subst hs'
    rfl
  | ratchet j => simp only [Joint.applyImpulse, RatchetJoint.applyImpulse, hs.1, if_true]
  | rotaryLimit j => simp only [Joint.applyImpulse, RotaryLimitJoint.applyImpulse, hs.1, if_true]
  | motor j =>
    have h1 := h.1
    simp only [Joint.applyImpulse, SimpleMotor.applyImpulse, ha.w, hb.w, h1, h.2.2, Rounded.sub_self, Rounded.neg_zero, Rounded.zero_mul, Rounded.add_zero,
      clamp_nought (Rounded.mul_nonneg _ _ h.2.1 hdt), spin_none]
    obtain ⟨-, -, h3⟩ := h
    cases j
    dsimp only at h1 h3
    subst h1
    subst h3
    rfl
  | spring j =>
    have hs' : j.targetVrn = 0 := hs
    simp only [Joint.applyImpulse, DampedSpring.applyImpulse, normalRelativeVelocity, relative_rest M ha hb, zero_dot_v2, hs', Rounded.sub_self, Rounded.zero_mul, Rounded.add_zero, scale_none,
      applyImpulses_nought]
    cases j
    dsimp only at hs'
    subst hs'
    rfl
  | rotarySpring j =>
    have hs' : j.targetWrn = 0 := hs
    have e1 := ha.w; have e2 := hb.w
    simp only [Joint.applyImpulse, DampedRotarySpring.applyImpulse, ha.w, hb.w, hs', Rounded.sub_self, Rounded.zero_mul, Rounded.add_zero, Rounded.sub_self]
    cases j; cases a; cases b
    dsimp only at hs' e1 e2
    subst hs'; subst e1; subst e2
    rfl

/-! ### The step -/

theorem putPair_idle (bs : Nat → Body K) (i j : Nat) : putPair bs i j (bs i) (bs j) = bs := by
  funext k
  unfold putPair
  split
  · subst_vars; rfl
  · split
    · subst_vars; rfl
    · rfl

theorem linkLoop_idle {α : Type} {P Q : Nat → Nat → α → Prop} (f : α → Body K → Body K → Body K × Body K × α) (bs : Nat → Body K)
    (hf : ∀ i j x, P i j x → ∃ y, f x (bs i) (bs j) = (bs i, bs j, y) ∧ Q i j y) :
    ∀ ls : List (Link α), (∀ l ∈ ls, P l.ia l.ib l.it) → (linkLoop f ls bs).1 = bs ∧ ∀ l ∈ (linkLoop f ls bs).2, Q l.ia l.ib l.it
  | [], _ => ⟨rfl, by simp [linkLoop]⟩
  | l :: ls, h => by
    obtain ⟨y, e, q⟩ := hf _ _ _ (h l (by simp))
    obtain ⟨i1, i2⟩ := linkLoop_idle f bs hf ls fun l hl => h l (by simp [hl])
    simp only [linkLoop, e, putPair_idle]
    refine ⟨i1, ?_⟩
    intro l' hl'
    rcases List.mem_cons.1 hl' with rfl | hl'
    · exact q
    · exact i2 l' hl'

namespace Spec
/-- Nothing moves and nothing pushes. -/
structure StillState (M : Mth K) (par : Params K) (s : SolverState K) : Prop where
  bodies : ∀ k, Quiescent M (s.bodies k)
  joints : ∀ l ∈ s.joints, SlackJoint M (s.bodies l.ia) (s.bodies l.ib) l.it
end Spec

theorem step_still (M : Mth K) (par : Params K) (hg : par.gravity = V2.zero) (prevDT : K) (inp : StepIn K) (hdt : 0 ≤ inp.dt) (s : SolverState K) (h : StillState M par s)
    (ha : ∀ l ∈ inp.arbs, Slack par.slop (s.bodies l.ia) (s.bodies l.ib) l.it) :
    (s.step M par prevDT inp).bodies = s.bodies ∧ StillState M par (s.step M par prevDT inp) := by
  suffices hh : (s.step M par prevDT inp).bodies = s.bodies ∧ ∀ l ∈ (s.step M par prevDT inp).joints, SlackJoint M (s.bodies l.ia) (s.bodies l.ib) l.it by
    exact ⟨hh.1, ⟨by rw [hh.1]; exact h.bodies, by rw [hh.1]; exact hh.2⟩⟩
  unfold SolverState.step
  split
  · exact ⟨rfl, h.joints⟩
  · unfold SolverState.solve
    have e0 : ({ s.positions M inp.dyn inp.dt with arbs := inp.arbs } : SolverState K) = ⟨s.bodies, inp.arbs, s.joints⟩ := by
      have : (s.positions M inp.dyn inp.dt).bodies = s.bodies := funext fun k => ?_
      · exact congrArg (fun b => (⟨b, inp.arbs, s.joints⟩ : SolverState K)) this
      unfold SolverState.positions
      dsimp only
      split
      · exact updatePosition_rest M _ (h.bodies k)
      · rfl
    rw [e0]
    generalize inp.arbs = arbs at ha
    obtain ⟨bs, s0, js⟩ := s
    obtain ⟨hb, hj⟩ := h
    dsimp only at hb hj ha ⊢
    have p1 := linkLoop_idle (P := fun i j x => Slack par.slop (bs i) (bs j) x) (Q := fun _ _ x => Mute x)
      (fun (arb : Arbiter K) a b => (a, b, arb.preStep a b inp.dt par.slop (1 - M.pow par.cbias inp.dt))) bs
      (fun i j x hx => ⟨_, rfl, preStep_mute M (hb i) (hb j) _ _ _ hx⟩) arbs ha
    have p2 := linkLoop_idle (P := fun i j x => SlackJoint M (bs i) (bs j) x) (Q := fun i j x => SlackJoint M (bs i) (bs j) x ∧ Silent x)
      (fun (jt : Joint K) a b => jt.preStep M par.inf a b inp.dt) bs (fun i j x hx => joint_prepared M par.inf inp.dt hx) js hj
    -- prepared
    set S := SolverState.preStep M par.inf par.slop par.cbias inp.dt ⟨bs, arbs, js⟩ with hS
    have q : S.bodies = bs ∧ (∀ l ∈ S.arbs, Mute l.it) ∧ ∀ l ∈ S.joints, SlackJoint M (bs l.ia) (bs l.ib) l.it ∧ Silent l.it := by
      rw [hS]
      unfold SolverState.preStep
      dsimp only
      rw [p1.1]
      exact ⟨p2.1, p1.2, p2.2⟩
    clear_value S
    -- velocities
    have q1 : (S.velocities M par.inf par.damping par.gravity inp.dyn inp.dt) = S := by
      have : (S.velocities M par.inf par.damping par.gravity inp.dyn inp.dt).bodies = S.bodies := funext fun k => ?_
      · exact congrArg (fun b => (⟨b, S.arbs, S.joints⟩ : SolverState K)) this
      unfold SolverState.velocities
      dsimp only
      split
      · rw [hg, q.1]; exact updateVelocity_rest M _ _ _ (hb k)
      · rfl
    rw [q1]
    have q2 : (S.cached prevDT inp.dt).bodies = bs ∧ (∀ l ∈ (S.cached prevDT inp.dt).arbs, Mute l.it) ∧
        ∀ l ∈ (S.cached prevDT inp.dt).joints, SlackJoint M (bs l.ia) (bs l.ib) l.it ∧ Silent l.it := by
      unfold SolverState.cached
      dsimp only
      generalize (if prevDT ≠ 0 then inp.dt / prevDT else 0) = d
      have r1 := linkLoop_idle (P := fun _ _ x => Mute x) (Q := fun _ _ x => Mute x) (fun (arb : Arbiter K) a b => let t := arb.applyCachedImpulse a b d; (t.1, t.2, arb)) bs
        (fun i j x hx => ⟨x, by simp only [cached_mute d hx], hx⟩) S.arbs q.2.1
      have r2 := linkLoop_idle (P := fun i j x => SlackJoint M (bs i) (bs j) x ∧ Silent x) (Q := fun i j x => SlackJoint M (bs i) (bs j) x ∧ Silent x)
        (fun (jt : Joint K) a b => let t := jt.applyCached a b d; (t.1, t.2, jt)) bs
        (fun i j x hx => ⟨x, by simp only [joint_cached_still M d hx.1 hx.2], hx⟩) S.joints q.2.2
      rw [q.1, r1.1]
      exact ⟨r2.1, r1.2, r2.2⟩
    generalize S.cached prevDT inp.dt = T at q2
    have q3 : ∀ n, ((SolverState.iterate M inp.dt)^[n] T).bodies = bs ∧ (∀ l ∈ ((SolverState.iterate M inp.dt)^[n] T).arbs, Mute l.it) ∧
        ∀ l ∈ ((SolverState.iterate M inp.dt)^[n] T).joints, SlackJoint M (bs l.ia) (bs l.ib) l.it ∧ Silent l.it := by
      intro n
      induction n with
      | zero => exact q2
      | succ n ih =>
        rw [Function.iterate_succ_apply']
        generalize (SolverState.iterate M inp.dt)^[n] T = U at ih
        unfold SolverState.iterate
        dsimp only
        have r1 := linkLoop_idle (P := fun _ _ x => Mute x) (Q := fun _ _ x => Mute x) (fun (arb : Arbiter K) a b => arb.applyImpulse a b) bs
          (fun i j x hx => ⟨x, impulse_mute M (hb i) (hb j) hx, hx⟩) U.arbs ih.2.1
        have r2 := linkLoop_idle (P := fun i j x => SlackJoint M (bs i) (bs j) x ∧ Silent x) (Q := fun i j x => SlackJoint M (bs i) (bs j) x ∧ Silent x)
          (fun (jt : Joint K) a b => jt.applyImpulse M a b inp.dt) bs
          (fun i j x hx => ⟨x, joint_still M (hb i) (hb j) hdt hx.1 hx.2, hx⟩) U.joints ih.2.2
        rw [ih.1, r1.1]
        exact ⟨r2.1, r1.2, r2.2⟩
    exact ⟨(q3 _).1, fun l hl => ((q3 _).2.2 l hl).1⟩

/-- **C129.** In any arithmetic that rounds, bodies at rest without gravity, with contacts that do not overlap by more than the slop and joints that are where they should be, stay for
ever exactly where they are: no error creeps in, however many steps there are and of whatever lengths. -/
theorem C129_rest (M : Mth K) (par : Params K) (hg : par.gravity = V2.zero) : ∀ (ins : List (StepIn K)) (prevDT : K) (s : SolverState K), StillState M par s →
    (∀ i ∈ ins, 0 ≤ i.dt ∧ ∀ l ∈ i.arbs, Slack par.slop (s.bodies l.ia) (s.bodies l.ib) l.it) → (SolverState.steps M par ins prevDT s).bodies = s.bodies
  | [], _, _, _, _ => rfl
  | i :: is, prevDT, s, h, ha => by
    obtain ⟨e, h'⟩ := step_still M par hg prevDT i (ha i (by simp)).1 s h (ha i (by simp)).2
    unfold SolverState.steps
    rw [C129_rest M par hg is _ _ h' (by rw [e]; exact fun i hi => ha i (by simp [hi])), e]

/-- **C129.** The same of a step of the whole simulation, whose collisions are found by the library. -/
theorem C129_rest_world (M : Mth K) (sc : Scene K) (hg : sc.par.gravity = V2.zero) (inp : Tick K) (hdt : 0 ≤ inp.dt) (w : World K) (h : StillState M sc.par ⟨w.bodies, [], w.joints⟩)
    (hc : ∀ l ∈ collisions M sc inp w, Slack sc.par.slop (w.bodies l.ia) (w.bodies l.ib) l.it) : (w.step M sc inp).bodies = w.bodies := by
  rw [(C111_step M sc inp w ⟨w.bodies, [], w.joints⟩ rfl rfl).1]
  exact (step_still M sc.par hg w.prevDT ⟨inp.dt, inp.dyn, collisions M sc inp w⟩ hdt ⟨w.bodies, [], w.joints⟩ h hc).1

/-! ## The whole simulation -/

theorem run_append_any (M : Mth K) (sc : Scene K) (ops ops' : List (WorldOp K)) : ∀ w : World K, w.run M sc (ops ++ ops') = (w.run M sc ops).bind fun w => w.run M sc ops' := by
  induction ops with
  | nil => intro w; rfl
  | cons op ops ih =>
    intro w
    simp only [List.cons_append, World.run]
    cases w.run1 M sc op with
    | none => rfl
    | some w => exact ih w

/-- **C129.** In any arithmetic that rounds, after any history of adding and removing shapes, moving bodies, changing joints and steps of any lengths, the library has not failed; the
next step tests exactly the pairs whose boxes, as computed, touch and whose filters agree, each once, and collides those the tests and the caller want; it remembers exactly what it
found; and no contact pulls or has more friction than its grip. -/
theorem C129_world (M : Mth K) {sc : Scene K} (hm : ∀ i, Sized (sc.figs i).cls) (hfr : ∀ i, 0 ≤ (sc.figs i).surface.friction) (hper : 1 ≤ sc.persistence) (bodies : Nat → Body K)
    (shapes : Nat → CShape K) (hs : ∀ i, (shapes i).bb.L ≤ (shapes i).bb.R ∧ (shapes i).bb.B ≤ (shapes i).bb.T) (ops : List (WorldOp K)) (hl : InOrder sc (fun _ => none) ops) :
    ∃ w, (World.init bodies shapes).run M sc ops = some w ∧ (∀ h ∈ w.cache, ∀ c ∈ h.arb.contacts, Pushes (grip sc h.a h.b) c) ∧
      ∀ inp : Tick K, inp.dt ≠ 0 → Ordered sc (rosterAfter (fun _ => none) ops) (.step inp) →
        StepHonest M sc inp (rosterAfter (fun _ => none) ops) w (w.step M sc inp) ∧ Remembers sc w (w.step M sc inp) (collisions M sc inp w) ∧
        (∀ l ∈ collisions M sc inp w, ∀ c ∈ l.it.contacts, Pushes l.it.u c) ∧ ∀ h ∈ (w.step M sc inp).cache, ∀ c ∈ h.arb.contacts, Pushes (grip sc h.a h.b) c := by
  have hb := sized_boxed hm
  obtain ⟨w, e, hi⟩ := run_indexed M hb ops _ _ (init_indexed sc bodies shapes hs) hl
  obtain ⟨w', e', -, hmem⟩ := C116_memory M hb hper bodies shapes hs ops hl
  rw [e] at e'
  cases e'
  obtain ⟨c1, c2⟩ := C116_cone M sc hfr bodies shapes ops w e
  refine ⟨w, e, c1, fun inp h0 ho => ⟨step_honest M hb hi inp ho h0, (hmem inp h0 ho).1, c2 inp, ?_⟩⟩
  have e2 : (World.init bodies shapes).run M sc (ops ++ [.step inp]) = some (w.step M sc inp) := by
    rw [run_append_any, e]
    rfl
  exact (C116_cone M sc hfr bodies shapes (ops ++ [.step inp]) _ e2).1

/-! ## Examples with numbers as the processor has them -/

/-- Numbers of 64 bits, with a square root good to six digits and bodies that do not turn. -/
def f64Mth : Mth F64 where
  sqrt := fun x => binary64.rnd ((Nat.sqrt ⌊x.1 * 2 ^ 40⌋₊ : ℚ) / 2 ^ 20)
  cos := fun _ => 1
  sin := fun _ => 0
  exp := fun _ => 1
  pow := fun _ _ => binary64.rnd (9/10)
  floor := fun x => binary64.rnd ⌊x.1⌋
def f64 (x : ℚ) : F64 := binary64.rnd x
def f64Scene : Scene F64 :=
  ⟨fun i => ⟨.circle ⟨⟨0, 0⟩, ⟨0, 0⟩, 1⟩, i % 2, ⟨0#64, 1#64, 1#64⟩, ⟨f64 (1/10), f64 (7/10), ⟨0, 0⟩⟩, false, BitVec.ofNat 64 i⟩,
    ⟨f64 (10^20), f64 (1/10), f64 (1/2), f64 (9/10), ⟨0, 0⟩, 2⟩, f64 (1/1000), 3, fun _ _ => false⟩
def f64Body (x v : ℚ) : Body F64 :=
  { Body.blank with m := 1, mInv := 1, i := 1, iInv := 1, p := ⟨f64 x, 0⟩, v := ⟨f64 v, f64 (1/3)⟩, tr := ⟨1, 0, 0, 1, f64 x, 0⟩ }
def f64Shapes : Nat → CShape F64 := fun _ => ⟨.circle ⟨⟨0, 0⟩, ⟨0, 0⟩, 1⟩, ⟨0, 0, 0, 0⟩, 0, ⟨1, 0⟩⟩
def f64Tick : Tick F64 := ⟨f64 (1/10), [0, 1], [1, 0], fun _ _ => true, fun _ _ => true⟩
def f64Do : List (WorldOp F64) := [.addDyn 0, .addDyn 1, .step f64Tick]
def f64Bodies : Nat → Body F64 := fun k => if k = 0 then f64Body 0 1 else f64Body (21/10) (-1/2)

def f64World : World F64 := World.init f64Bodies f64Shapes

/-- The hypotheses of the theorem on the whole simulation: two balls that meet in the first step, and push one another. -/
example : (∀ i, Sized (f64Scene.figs i).cls) ∧ (∀ i, 0 ≤ (f64Scene.figs i).surface.friction) ∧ 1 ≤ f64Scene.persistence ∧
    (∀ i, (f64Shapes i).bb.L ≤ (f64Shapes i).bb.R ∧ (f64Shapes i).bb.B ≤ (f64Shapes i).bb.T) ∧ InOrder f64Scene (fun _ => none) f64Do ∧
    Ordered f64Scene (rosterAfter (fun _ => none) f64Do) (.step f64Tick) ∧ f64Tick.dt ≠ 0 ∧
    ((f64World.run f64Mth f64Scene f64Do).map fun w => w.cache.map fun h => (h.a, h.b, h.arb.contacts.map fun c => decide (0 < c.jnAcc))) = some [(1, 0, [true])] := by
  have o : ∀ r : Roster, (∀ i, r i = if i = 1 then some true else if i = 0 then some true else none) → Ordered f64Scene r (.step f64Tick) := by
    intro r hr
    refine ⟨by decide, fun i => ?_, fun j hj => ?_⟩
    · rw [hr]
      show i ∈ [1, 0] ↔ _
      by_cases h1 : i = 1
      · simp [h1]
      · by_cases h0 : i = 0 <;> simp [h1, h0]
    · rw [hr] at hj
      split at hj
      · cases hj
      · split at hj <;> cases hj
  have hr : ∀ i, rosterAfter (K := F64) (fun _ => none) [.addDyn 0, .addDyn 1] i = if i = 1 then some true else if i = 0 then some true else none := fun i => rfl
  refine ⟨fun _ => ?_, fun _ => ?_, by decide, fun _ => ⟨le_rfl, le_rfl⟩, ⟨rfl, rfl, o _ hr, trivial⟩, o _ hr, by decide +kernel, by decide +kernel⟩
  · show (0 : F64) ≤ 1
    decide +kernel
  · show (0 : F64) ≤ f64 (7/10)
    decide +kernel

/-- In the same world, the first ball alone, with damping: its speed falls, and the result is not the exact product. -/
example : (∀ l ∈ f64World.joints, l.ia ≠ 0 ∧ l.ib ≠ 0) ∧ (∀ l ∈ collisions f64Mth f64Scene f64Tick f64World, l.ia ≠ 0 ∧ l.ib ≠ 0) ∧ f64Scene.par.gravity = V2.zero ∧
    ((f64World.bodies 0).force = V2.zero ∧ (f64World.bodies 0).torque = 0) ∧ 0 ≤ f64Mth.pow f64Scene.par.damping f64Tick.dt ∧ f64Mth.pow f64Scene.par.damping f64Tick.dt ≤ 1 ∧
    ((f64World.step f64Mth f64Scene f64Tick).bodies 0).v.y.1 ≠ (f64World.bodies 0).v.y.1 * (f64 (9/10)).1 := by
  refine ⟨(fun l h => absurd h List.not_mem_nil), ?_, rfl, ⟨rfl, rfl⟩, by decide +kernel, by decide +kernel, by decide +kernel⟩
  have : (collisions f64Mth f64Scene f64Tick f64World).length = 0 := by decide +kernel
  intro l hl
  rw [List.length_eq_zero_iff.1 this] at hl
  cases hl

/-- A motor between the two balls, too weak to reach its rate in one step: its impulse is at its limit, which is rounded. -/
def f64Motor : World F64 := { f64World with joints := [⟨0, 1, .motor ⟨⟨f64 (1/3), 0, 0⟩, f64 5, 0, 0⟩⟩] }
example : f64Tick.dt ≠ 0 ∧ 0 ≤ f64Tick.dt ∧ f64Scene.par.iterations ≠ 0 ∧ (∀ l ∈ f64Motor.joints, Strong l.it) ∧
    (f64Motor.step f64Mth f64Scene f64Tick).joints.map (fun l => match l.it with | .motor j => j.jAcc | _ => 0) = [-(f64 (1/3) * f64 (1/10))] ∧
    (f64 (1/3) * f64 (1/10)).1 ≠ (f64 (1/3)).1 * (f64 (1/10)).1 := by
  refine ⟨by decide +kernel, by decide +kernel, by decide, ?_, by decide +kernel, by decide +kernel⟩
  intro l hl
  simp only [f64Motor, List.mem_singleton] at hl
  subst hl
  show (0 : F64) ≤ f64 (1/3)
  decide +kernel

/-- Two balls a third apart, held by a rod of the length that the library computes, which is not exact, touching, and at rest. -/
def f64Rest : SolverState F64 :=
  ⟨fun k => { Body.blank with m := 1, mInv := 1, i := 1, iInv := 1, p := ⟨f64 (if k = 0 then 0 else 1/3), 0⟩, tr := ⟨1, 0, 0, 1, f64 (if k = 0 then 0 else 1/3), 0⟩ },
    [], [⟨0, 1, .pin ⟨⟨f64 1000, f64 (1/2), f64 100⟩, ⟨0, 0⟩, ⟨0, 0⟩, (⟨f64 (1/3), 0⟩ : V2 F64).mag f64Mth, ⟨0, 0⟩, ⟨0, 0⟩, ⟨0, 0⟩, 0, 0, 0⟩⟩]⟩
def f64Touch : Link (Arbiter F64) := ⟨0, 1, ⟨0, f64 (7/10), V2.zero, ⟨1, 0⟩, [⟨⟨f64 (1/6), 0⟩, ⟨-(f64 (1/6)), 0⟩, 0, 0, 0, 0, 0, 0, 0, 0⟩], .first, false⟩⟩
example : f64Scene.par.gravity = V2.zero ∧ StillState f64Mth f64Scene.par f64Rest ∧ 0 ≤ f64 (1/10) ∧ Slack f64Scene.par.slop (f64Rest.bodies 0) (f64Rest.bodies 1) f64Touch.it := by
  refine ⟨rfl, ⟨fun k => ⟨rfl, rfl, rfl, rfl, rfl, rfl, ?_⟩, fun l hl => ?_⟩, by decide +kernel, ⟨rfl, ?_, ?_⟩⟩
  · simp only [f64Rest]
    split <;> decide +kernel
  · simp only [f64Rest, List.mem_singleton] at hl
    subst hl
    exact ⟨rfl, by decide +kernel, by decide +kernel, by decide +kernel⟩
  · decide +kernel
  · decide +kernel

end Cm
