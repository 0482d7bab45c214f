import Verif.Model.Step
import Verif.Props.JointMomentum
import Mathlib.Tactic.LinearCombination
/-! # C92: the centre of mass of an isolated system -/
set_option linter.unusedSectionVars false
set_option linter.unusedSimpArgs false
set_option linter.unusedVariables false

namespace Cm
open Spec
variable {K : Type} [Field K] [LinearOrder K] [IsStrictOrderedRing K]

namespace Spec
/-- The mass of the bodies `0 .. N-1`. -/
def totalMass (N : Nat) (bs : Nat → Body K) : K := ∑ k ∈ Finset.range N, (bs k).m
/-- Their total mass times the place of their centre of mass. -/
def massPos (N : Nat) (bs : Nat → Body K) : V2 K :=
  ⟨∑ k ∈ Finset.range N, (bs k).m * (bs k).p.x, ∑ k ∈ Finset.range N, (bs k).m * (bs k).p.y⟩
/-- The sum of the forces on them. -/
def totalForce (N : Nat) (bs : Nat → Body K) : V2 K :=
  ⟨∑ k ∈ Finset.range N, (bs k).force.x, ∑ k ∈ Finset.range N, (bs k).force.y⟩
/-- The momentum of the correction velocities. -/
def totalBias (N : Nat) (bs : Nat → Body K) : V2 K :=
  ⟨∑ k ∈ Finset.range N, (biasMom (bs k)).x, ∑ k ∈ Finset.range N, (biasMom (bs k)).y⟩

/-- A single particle: mass times place, momentum, and the force on it. -/
structure Particle (K : Type) where
  x : V2 K
  p : V2 K
  f : V2 K

/-- The particle of the bodies `0 .. N-1`. -/
def particle (N : Nat) (bs : Nat → Body K) : Particle K := ⟨massPos N bs, totalMom N bs, totalForce N bs⟩

/-- A step of length `t` of a single particle of mass `m` under gravity `g`, which keeps the fraction `d` of its velocity. -/
def Particle.step (m d : K) (g : V2 K) (t : K) (q : Particle K) : Particle K :=
  if t = 0 then q
  else ⟨⟨q.x.x + t * q.p.x, q.x.y + t * q.p.y⟩, ⟨d * q.p.x + t * (m * g.x + q.f.x), d * q.p.y + t * (m * g.y + q.f.y)⟩, ⟨0, 0⟩⟩

/-- The bodies `0 .. N-1` are dynamic and have finite masses. -/
def Free (inf : K) (N : Nat) (bs : Nat → Body K) : Prop := ∀ k < N, FiniteMass (bs k) ∧ (bs k).type inf = .dynamic

/-- All links are between two of them. -/
def AmongFree {α : Type} (N : Nat) (ls : List (Link α)) : Prop := ∀ l ∈ ls, l.ia < N ∧ l.ib < N ∧ l.ia ≠ l.ib
end Spec

theorem linkLoop_bias {α : Type} (f : α → Body K → Body K → Body K × Body K × α)
    (hf : ∀ x a b, Exchange a b (f x a b).1 (f x a b).2.1) (N : Nat) (ls : List (Link α)) :
    ∀ bs : Nat → Body K, LinksOk N bs ls → totalBias N (linkLoop f ls bs).1 = totalBias N bs := by
  induction ls with
  | nil => intro bs _; rfl
  | cons l ls ih =>
    intro bs h
    obtain ⟨h1, h2, h3, h4, h5⟩ := h l (by simp)
    have ex := hf l.it (bs l.ia) (bs l.ib)
    have hsame : ∀ k, SameBut (bs k) (putPair bs l.ia l.ib (f l.it (bs l.ia) (bs l.ib)).1
        (f l.it (bs l.ia) (bs l.ib)).2.1 k) := by
      intro k
      simp only [putPair]
      split
      · rename_i e; rw [e]; exact ex.sameA
      · split
        · rename_i e; rw [e]; exact ex.sameB
        · rfl
    have i1 := ih (putPair bs l.ia l.ib (f l.it (bs l.ia) (bs l.ib)).1 (f l.it (bs l.ia) (bs l.ib)).2.1)
      (by
        intro m hm
        obtain ⟨g1, g2, g3, g4, g5⟩ := h m (by simp [hm])
        exact ⟨g1, g2, g3, (hsame _).finiteMass.1 g4, (hsame _).finiteMass.1 g5⟩)
    simp only [linkLoop]
    rw [i1]
    unfold totalBias
    rw [sum_putPair N (fun b => (biasMom b).x) bs _ _ _ _ h1 h2 h3 (ex.bias h4 h5).1,
      sum_putPair N (fun b => (biasMom b).y) bs _ _ _ _ h1 h2 h3 (ex.bias h4 h5).2]

/-- What the loops of the solver keep. -/
structure Spec.Kept (inf : K) (N : Nat) (s s' : SolverState K) : Prop where
  same : ∀ k, SameBut (s.bodies k) (s'.bodies k)
  mom : totalMom N s'.bodies = totalMom N s.bodies
  bias : totalBias N s'.bodies = totalBias N s.bodies
  arbs : s'.arbs.map (fun l => (l.ia, l.ib)) = s.arbs.map (fun l => (l.ia, l.ib))
  joints : s'.joints.map (fun l => (l.ia, l.ib)) = s.joints.map (fun l => (l.ia, l.ib))

theorem Spec.Kept.trans {inf : K} {N : Nat} {s s' s'' : SolverState K} (h : Kept inf N s s') (h' : Kept inf N s' s'') : Kept inf N s s'' :=
  ⟨fun k => (h.same k).trans (h'.same k), h'.mom.trans h.mom, h'.bias.trans h.bias, h'.arbs.trans h.arbs, h'.joints.trans h.joints⟩

theorem inside_transfer {α : Type} {N : Nat} {ls ls' : List (Link α)} (h : AmongFree N ls)
    (hl : ls'.map (fun l => (l.ia, l.ib)) = ls.map (fun l => (l.ia, l.ib))) : AmongFree N ls' := by
  intro l hm
  have : (l.ia, l.ib) ∈ ls'.map (fun l => (l.ia, l.ib)) := List.mem_map.2 ⟨l, hm, rfl⟩
  rw [hl] at this
  obtain ⟨m, hm', e⟩ := List.mem_map.1 this
  simp only [Prod.mk.injEq] at e
  obtain ⟨g1, g2, g3⟩ := h m hm'
  rw [e.1] at g1 g3
  rw [e.2] at g2 g3
  exact ⟨g1, g2, g3⟩

theorem free_transfer {inf : K} {N : Nat} {bs bs' : Nat → Body K} (h : Free inf N bs) (hs : ∀ k, SameBut (bs k) (bs' k)) : Free inf N bs' := by
  intro k hk
  obtain ⟨h1, h2⟩ := h k hk
  refine ⟨(hs k).finiteMass.1 h1, ?_⟩
  obtain ⟨m1, _, _, _, _, _, _, _, m9, _⟩ := (hs k).masses
  simp only [Body.type] at h2 ⊢
  rw [m1, m9]; exact h2

theorem linksOk_of {α : Type} {inf : K} {N : Nat} {bs : Nat → Body K} {ls : List (Link α)} (h : Free inf N bs) (hi : AmongFree N ls) : LinksOk N bs ls := by
  intro l hl
  obtain ⟨h1, h2, h3⟩ := hi l hl
  exact ⟨h1, h2, h3, (h _ h1).1, (h _ h2).1⟩

theorem loops_kept {inf : K} {N : Nat} (f : Arbiter K → Body K → Body K → Body K × Body K × Arbiter K)
    (g : Joint K → Body K → Body K → Body K × Body K × Joint K)
    (hf : ∀ x a b, Exchange a b (f x a b).1 (f x a b).2.1) (hg : ∀ x a b, Exchange a b (g x a b).1 (g x a b).2.1)
    (s : SolverState K) (hb : Free inf N s.bodies) (ha : AmongFree N s.arbs) (hj : AmongFree N s.joints) :
    Kept inf N s ⟨(linkLoop g s.joints (linkLoop f s.arbs s.bodies).1).1, (linkLoop f s.arbs s.bodies).2,
      (linkLoop g s.joints (linkLoop f s.arbs s.bodies).1).2⟩ := by
  obtain ⟨a1, a2, a3⟩ := linkLoop_momentum f hf N s.arbs s.bodies (linksOk_of hb ha)
  have a4 := linkLoop_bias f hf N s.arbs s.bodies (linksOk_of hb ha)
  have hb' := free_transfer hb a2
  obtain ⟨b1, b2, b3⟩ := linkLoop_momentum g hg N s.joints _ (linksOk_of hb' hj)
  have b4 := linkLoop_bias g hg N s.joints _ (linksOk_of hb' hj)
  exact ⟨fun k => (a2 k).trans (b2 k), b1.trans a1, b4.trans a4, a3, b3⟩

theorem iterates_kept {inf : K} {N : Nat} (M : Mth K) (dt : K) (n : Nat) : ∀ s : SolverState K, Free inf N s.bodies → AmongFree N s.arbs → AmongFree N s.joints →
    Kept inf N s ((SolverState.iterate M dt)^[n] s) := by
  induction n with
  | zero => intro s _ _ _; exact ⟨fun _ => rfl, rfl, rfl, rfl, rfl⟩
  | succ n ih =>
    intro s hb ha hj
    rw [Function.iterate_succ_apply]
    have h : Kept inf N s (s.iterate M dt) := loops_kept (fun arb a b => arb.applyImpulse a b) (fun jt a b => jt.applyImpulse M a b dt)
      arbExchange (fun x a b => C38_iteration M dt x a b) s hb ha hj
    exact h.trans (ih _ (free_transfer hb h.same) (inside_transfer ha h.arbs) (inside_transfer hj h.joints))

/-- What a system needs and keeps. -/
structure Spec.Isolated (inf : K) (N : Nat) (s : SolverState K) : Prop where
  free : Free inf N s.bodies
  arbs : AmongFree N s.arbs
  joints : AmongFree N s.joints
  bias : totalBias N s.bodies = ⟨0, 0⟩

theorem particle_same {N : Nat} {bs bs' : Nat → Body K} (hs : ∀ k, SameBut (bs k) (bs' k)) :
    massPos N bs' = massPos N bs ∧ totalForce N bs' = totalForce N bs ∧ totalMass N bs' = totalMass N bs := by
  have hp : ∀ k, (bs' k).m = (bs k).m ∧ (bs' k).p = (bs k).p ∧ (bs' k).force = (bs k).force := by
    intro k
    obtain ⟨m1, _, _, _, m5, _, _, _, _, m10, _⟩ := (hs k).masses
    exact ⟨m1, m5, m10⟩
  refine ⟨?_, ?_, ?_⟩
  · simp only [massPos, (hp _).1, (hp _).2.1]
  · simp only [totalForce, (hp _).2.2]
  · simp only [totalMass, (hp _).1]

theorem solve_particle (M : Mth K) {inf : K} {N : Nat} (slop cbias damping : K) (g : V2 K) (dyn : List Nat) (hd : ∀ k < N, k ∈ dyn) (prevDT dt : K) (n : Nat)
    (s : SolverState K) (h : Isolated inf N s) :
    let s' := s.solve M inf slop cbias damping g dyn prevDT dt n
    Isolated inf N s' ∧ totalMass N s'.bodies = totalMass N s.bodies ∧ massPos N s'.bodies = massPos N s.bodies ∧
    totalForce N s'.bodies = ⟨0, 0⟩ ∧
    totalMom N s'.bodies = ⟨M.pow damping dt * (totalMom N s.bodies).x + dt * (totalMass N s.bodies * g.x + (totalForce N s.bodies).x),
      M.pow damping dt * (totalMom N s.bodies).y + dt * (totalMass N s.bodies * g.y + (totalForce N s.bodies).y)⟩ := by
  intro s'
  have h1 : Kept inf N s (s.preStep M inf slop cbias dt) :=
    loops_kept (fun arb a b => (a, b, arb.preStep a b dt slop (1 - M.pow cbias dt))) (fun jt a b => jt.preStep M inf a b dt)
      (fun x a b => Exchange.refl a b) (fun x a b => C38_preStep M inf dt x a b) s h.free h.arbs h.joints
  generalize hs1 : s.preStep M inf slop cbias dt = s1 at h1
  have f1 := free_transfer h.free h1.same
  have hv : ∀ k < N, ((s1.velocities M inf damping g dyn dt).bodies k) = (s1.bodies k).updateVelocity inf g (M.pow damping dt) dt := by
    intro k hk; simp only [SolverState.velocities, if_pos (hd k hk)]
  have hu : ∀ k < N, let b := s1.bodies k; let b' := (s1.velocities M inf damping g dyn dt).bodies k
      b'.m = b.m ∧ b'.mInv = b.mInv ∧ b'.idle = b.idle ∧ b'.p = b.p ∧ b'.vBias = b.vBias ∧ b'.force = ⟨0, 0⟩ ∧
      b'.m * b'.v.x = M.pow damping dt * (b.m * b.v.x) + dt * (b.m * g.x + b.force.x) ∧
      b'.m * b'.v.y = M.pow damping dt * (b.m * b.v.y) + dt * (b.m * g.y + b.force.y) := by
    intro k hk
    obtain ⟨fm, ty⟩ := f1 k hk
    have nk : ¬ (BodyType.dynamic = BodyType.kinematic) := by decide
    simp only [hv k hk, Body.updateVelocity, ty, if_neg nk]
    simp only [FiniteMass] at fm
    refine ⟨by trivial, by trivial, by trivial, by trivial, by trivial, by first | trivial | rfl, ?_, ?_⟩
    · simp only [V2.add, V2.scale]; linear_combination (dt * (s1.bodies k).force.x) * fm
    · simp only [V2.add, V2.scale]; linear_combination (dt * (s1.bodies k).force.y) * fm
  generalize hs2 : s1.velocities M inf damping g dyn dt = s2 at hu
  have hl2 : s2.arbs = s1.arbs ∧ s2.joints = s1.joints := by rw [← hs2]; exact ⟨rfl, rfl⟩
  have f2 : Free inf N s2.bodies := by
    intro k hk
    obtain ⟨fm, ty⟩ := f1 k hk
    obtain ⟨u1, u2, u3, _⟩ := hu k hk
    refine ⟨by simp only [FiniteMass, u1, u2]; exact fm, ?_⟩
    simp only [Body.type, u1, u3] at ty ⊢
    exact ty
  have i2a : AmongFree N s2.arbs := by rw [hl2.1]; exact inside_transfer h.arbs h1.arbs
  have i2j : AmongFree N s2.joints := by rw [hl2.2]; exact inside_transfer h.joints h1.joints
  have h3 : Kept inf N s2 (s2.cached prevDT dt) :=
    loops_kept (fun arb a b => let t := arb.applyCachedImpulse a b (if prevDT ≠ 0 then dt / prevDT else 0); (t.1, t.2, arb))
      (fun jt a b => let t := jt.applyCached a b (if prevDT ≠ 0 then dt / prevDT else 0); (t.1, t.2, jt))
      (fun x a b => arbCachedExchange x _ a b) (fun x a b => C38_cached x _ a b) s2 f2 i2a i2j
  have h4 : Kept inf N s2 s' := by
    have e : s' = (SolverState.iterate M dt)^[n] (s2.cached prevDT dt) := by
      show s.solve M inf slop cbias damping g dyn prevDT dt n = _
      rw [SolverState.solve, hs1, hs2]
    rw [e]
    exact h3.trans (iterates_kept M dt n _ (free_transfer f2 h3.same) (inside_transfer i2a h3.arbs) (inside_transfer i2j h3.joints))
  obtain ⟨p1, p2, p3⟩ := particle_same (N := N) h1.same
  obtain ⟨q1, q2, q3⟩ := particle_same (N := N) h4.same
  have r3 : totalMass N s2.bodies = totalMass N s1.bodies := Finset.sum_congr rfl fun k hk => (hu k (Finset.mem_range.1 hk)).1
  have r1 : massPos N s2.bodies = massPos N s1.bodies := by
    have : ∀ k ∈ Finset.range N, (s2.bodies k).m = (s1.bodies k).m ∧ (s2.bodies k).p = (s1.bodies k).p :=
      fun k hk => ⟨(hu k (Finset.mem_range.1 hk)).1, (hu k (Finset.mem_range.1 hk)).2.2.2.1⟩
    simp only [massPos]
    congr 1
    · exact Finset.sum_congr rfl fun k hk => by rw [(this k hk).1, (this k hk).2]
    · exact Finset.sum_congr rfl fun k hk => by rw [(this k hk).1, (this k hk).2]
  have r2 : totalForce N s2.bodies = ⟨0, 0⟩ := by
    have : ∀ k ∈ Finset.range N, (s2.bodies k).force = ⟨0, 0⟩ := fun k hk => (hu k (Finset.mem_range.1 hk)).2.2.2.2.2.1
    simp only [totalForce]
    congr 1
    · exact Finset.sum_eq_zero fun k hk => by rw [this k hk]
    · exact Finset.sum_eq_zero fun k hk => by rw [this k hk]
  have r4 : totalBias N s2.bodies = totalBias N s1.bodies := by
    have : ∀ k ∈ Finset.range N, (s2.bodies k).m = (s1.bodies k).m ∧ (s2.bodies k).vBias = (s1.bodies k).vBias :=
      fun k hk => ⟨(hu k (Finset.mem_range.1 hk)).1, (hu k (Finset.mem_range.1 hk)).2.2.2.2.1⟩
    simp only [totalBias, biasMom]
    congr 1
    · exact Finset.sum_congr rfl fun k hk => by rw [(this k hk).1, (this k hk).2]
    · exact Finset.sum_congr rfl fun k hk => by rw [(this k hk).1, (this k hk).2]
  have r5 : totalMom N s2.bodies = ⟨M.pow damping dt * (totalMom N s1.bodies).x + dt * (totalMass N s1.bodies * g.x + (totalForce N s1.bodies).x),
      M.pow damping dt * (totalMom N s1.bodies).y + dt * (totalMass N s1.bodies * g.y + (totalForce N s1.bodies).y)⟩ := by
    simp only [totalMom, totalMass, totalForce, linMom]
    congr 1
    · rw [Finset.mul_sum, Finset.sum_mul, ← Finset.sum_add_distrib, Finset.mul_sum, ← Finset.sum_add_distrib]
      exact Finset.sum_congr rfl fun k hk => (hu k (Finset.mem_range.1 hk)).2.2.2.2.2.2.1
    · rw [Finset.mul_sum, Finset.sum_mul, ← Finset.sum_add_distrib, Finset.mul_sum, ← Finset.sum_add_distrib]
      exact Finset.sum_congr rfl fun k hk => (hu k (Finset.mem_range.1 hk)).2.2.2.2.2.2.2
  refine ⟨⟨free_transfer f2 h4.same, inside_transfer i2a h4.arbs, inside_transfer i2j h4.joints, ?_⟩, ?_, ?_, ?_, ?_⟩
  · rw [h4.bias, r4, h1.bias]; exact h.bias
  · rw [q3, r3, p3]
  · rw [q1, r1, p1]
  · rw [q2, r2]
  · rw [h4.mom, r5, h1.mom, p2, p3]

theorem positions_particle (M : Mth K) {inf : K} {N : Nat} (dyn : List Nat) (hd : ∀ k < N, k ∈ dyn) (dt : K) (s : SolverState K) (h : Isolated inf N s) :
    let s' := s.positions M dyn dt
    Isolated inf N s' ∧ totalMass N s'.bodies = totalMass N s.bodies ∧ totalForce N s'.bodies = totalForce N s.bodies ∧
    totalMom N s'.bodies = totalMom N s.bodies ∧
    massPos N s'.bodies = ⟨(massPos N s.bodies).x + dt * (totalMom N s.bodies).x, (massPos N s.bodies).y + dt * (totalMom N s.bodies).y⟩ := by
  intro s'
  have hv : ∀ k < N, s'.bodies k = (s.bodies k).updatePosition M dt := by
    intro k hk; show (if k ∈ dyn then _ else _) = _; rw [if_pos (hd k hk)]
  have hu : ∀ k ∈ Finset.range N, let b := s.bodies k; let b' := s'.bodies k
      b'.m = b.m ∧ b'.mInv = b.mInv ∧ b'.idle = b.idle ∧ b'.v = b.v ∧ b'.vBias = V2.zero ∧ b'.force = b.force ∧
      b'.p = ⟨b.p.x + (b.v.x + b.vBias.x) * dt, b.p.y + (b.v.y + b.vBias.y) * dt⟩ := by
    intro k hk
    simp only [hv k (Finset.mem_range.1 hk), Body.updatePosition, Body.setTransform]
    exact ⟨by trivial, by trivial, by trivial, by trivial, by trivial, by trivial, rfl⟩
  have hb := h.bias
  simp only [totalBias, V2.mk.injEq, biasMom] at hb
  refine ⟨⟨?_, h.arbs, h.joints, ?_⟩, ?_, ?_, ?_, ?_⟩
  · intro k hk
    obtain ⟨fm, ty⟩ := h.free k hk
    obtain ⟨u1, u2, u3, _⟩ := hu k (Finset.mem_range.2 hk)
    refine ⟨by simp only [FiniteMass, u1, u2]; exact fm, ?_⟩
    simp only [Body.type, u1, u3] at ty ⊢
    exact ty
  · simp only [totalBias, biasMom]
    congr 1
    · exact Finset.sum_eq_zero fun k hk => by rw [(hu k hk).2.2.2.2.1]; simp [V2.zero]
    · exact Finset.sum_eq_zero fun k hk => by rw [(hu k hk).2.2.2.2.1]; simp [V2.zero]
  · exact Finset.sum_congr rfl fun k hk => (hu k hk).1
  · simp only [totalForce]
    congr 1
    · exact Finset.sum_congr rfl fun k hk => by rw [(hu k hk).2.2.2.2.2.1]
    · exact Finset.sum_congr rfl fun k hk => by rw [(hu k hk).2.2.2.2.2.1]
  · simp only [totalMom, linMom]
    congr 1
    · exact Finset.sum_congr rfl fun k hk => by rw [(hu k hk).1, (hu k hk).2.2.2.1]
    · exact Finset.sum_congr rfl fun k hk => by rw [(hu k hk).1, (hu k hk).2.2.2.1]
  · simp only [massPos, totalMom, linMom]
    congr 1
    · have : ∀ k ∈ Finset.range N, (s'.bodies k).m * (s'.bodies k).p.x
          = (s.bodies k).m * (s.bodies k).p.x + dt * ((s.bodies k).m * (s.bodies k).v.x) + dt * ((s.bodies k).m * (s.bodies k).vBias.x) := by
        intro k hk
        obtain ⟨u1, _, _, _, _, _, u7⟩ := hu k hk
        simp only [u1, u7]; ring
      rw [Finset.sum_congr rfl this, Finset.sum_add_distrib, Finset.sum_add_distrib, ← Finset.mul_sum, ← Finset.mul_sum, hb.1]; ring
    · have : ∀ k ∈ Finset.range N, (s'.bodies k).m * (s'.bodies k).p.y
          = (s.bodies k).m * (s.bodies k).p.y + dt * ((s.bodies k).m * (s.bodies k).v.y) + dt * ((s.bodies k).m * (s.bodies k).vBias.y) := by
        intro k hk
        obtain ⟨u1, _, _, _, _, _, u7⟩ := hu k hk
        simp only [u1, u7]; ring
      rw [Finset.sum_congr rfl this, Finset.sum_add_distrib, Finset.sum_add_distrib, ← Finset.mul_sum, ← Finset.mul_sum, hb.2]; ring

/-- **C92** Any number of dynamic bodies, with any collisions and joints among them: over any steps their centre of mass moves as a single particle of
their total mass would under gravity, damping and the sum of their forces. Overlap correction and joints do not move it. -/
theorem C92_particle (M : Mth K) (par : Params K) (N : Nat) (ins : List (StepIn K)) :
    (∀ i ∈ ins, (∀ k < N, k ∈ i.dyn) ∧ AmongFree N i.arbs) →
    ∀ (prevDT : K) (s : SolverState K), Isolated par.inf N s →
      particle N (s.steps M par ins prevDT).bodies =
        ins.foldl (fun q i => q.step (totalMass N s.bodies) (M.pow par.damping i.dt) par.gravity i.dt) (particle N s.bodies) ∧
      totalBias N (s.steps M par ins prevDT).bodies = ⟨0, 0⟩ := by
  induction ins with
  | nil => intro _ prevDT s h; exact ⟨rfl, h.bias⟩
  | cons i ins ih =>
    intro hi prevDT s h
    obtain ⟨hd, ha⟩ := hi i List.mem_cons_self
    simp only [SolverState.steps, List.foldl_cons]
    have key : Isolated par.inf N (s.step M par prevDT i) ∧ totalMass N (s.step M par prevDT i).bodies = totalMass N s.bodies ∧
        particle N (s.step M par prevDT i).bodies = (particle N s.bodies).step (totalMass N s.bodies) (M.pow par.damping i.dt) par.gravity i.dt := by
      unfold SolverState.step Particle.step
      by_cases h0 : i.dt = 0
      · rw [if_pos h0, if_pos h0]; exact ⟨h, rfl, rfl⟩
      · rw [if_neg h0, if_neg h0]
        obtain ⟨a1, a2, a3, a4, a5⟩ := positions_particle M i.dyn hd i.dt s h
        obtain ⟨b1, b2, b3, b4, b5⟩ := solve_particle M par.slop par.cbias par.damping par.gravity i.dyn hd prevDT i.dt par.iterations
          { s.positions M i.dyn i.dt with arbs := i.arbs } ⟨a1.free, ha, a1.joints, a1.bias⟩
        refine ⟨b1, b2.trans a2, ?_⟩
        simp only [particle]
        rw [b3, b4, b5]
        simp only [a2, a3, a4, a5]
    obtain ⟨k1, k2, k3⟩ := key
    have := ih (fun j hj => hi j (List.mem_cons_of_mem _ hj)) (if i.dt = 0 then prevDT else i.dt) _ k1
    rw [k2, k3] at this
    exact this

/-- **C92** Without gravity, forces and damping the momentum stays what it was and the centre of mass moves uniformly. -/
theorem C92_uniform (M : Mth K) (par : Params K) (N : Nat) (ins : List (StepIn K)) (hi : ∀ i ∈ ins, (∀ k < N, k ∈ i.dyn) ∧ AmongFree N i.arbs)
    (hd : ∀ i ∈ ins, M.pow par.damping i.dt = 1) (hg : par.gravity = ⟨0, 0⟩) (prevDT : K) (s : SolverState K) (h : Isolated par.inf N s)
    (hf : totalForce N s.bodies = ⟨0, 0⟩) :
    totalMom N (s.steps M par ins prevDT).bodies = totalMom N s.bodies ∧
    massPos N (s.steps M par ins prevDT).bodies = ⟨(massPos N s.bodies).x + (ins.map (·.dt)).sum * (totalMom N s.bodies).x,
      (massPos N s.bodies).y + (ins.map (·.dt)).sum * (totalMom N s.bodies).y⟩ := by
  have key := (C92_particle M par N ins hi prevDT s h).1
  have fold : ∀ (l : List (StepIn K)) (m : K), (∀ i ∈ l, M.pow par.damping i.dt = 1) → ∀ q : Particle K, q.f = ⟨0, 0⟩ →
      l.foldl (fun q i => q.step m (M.pow par.damping i.dt) par.gravity i.dt) q
        = ⟨⟨q.x.x + (l.map (·.dt)).sum * q.p.x, q.x.y + (l.map (·.dt)).sum * q.p.y⟩, q.p, ⟨0, 0⟩⟩ := by
    intro l m
    induction l with
    | nil =>
      intro _ q hq
      obtain ⟨x, p, f⟩ := q
      simp only at hq
      simp [hq]
    | cons i l ih =>
      intro hl q hq
      have e : q.step m (M.pow par.damping i.dt) par.gravity i.dt = ⟨⟨q.x.x + i.dt * q.p.x, q.x.y + i.dt * q.p.y⟩, q.p, ⟨0, 0⟩⟩ := by
        unfold Particle.step
        split
        · rename_i h0
          obtain ⟨x, p, f⟩ := q
          simp only at hq
          simp [h0, hq]
        · rw [hl i List.mem_cons_self, hg, hq]
          simp
      rw [List.foldl_cons, e, ih (fun j hj => hl j (List.mem_cons_of_mem _ hj)) _ rfl]
      simp only [List.map_cons, List.sum_cons, Particle.mk.injEq, V2.mk.injEq, true_and, and_true]
      exact ⟨by ring, by ring⟩
  rw [fold ins (totalMass N s.bodies) hd (particle N s.bodies) hf] at key
  exact ⟨congrArg Particle.p key, congrArg Particle.x key⟩

/-! ## Example -/

/-- Three bodies joined by a contact and a motor meet the hypotheses, and a step changes their velocities. -/
def exStep : StepIn ℚ := ⟨1, [0, 1, 2], exSpace.arbs⟩
def exParams : Params ℚ := ⟨1000000, 0, 1/2, 1, ⟨0, -10⟩, 3⟩

example : Isolated exParams.inf 3 exSpace ∧ (∀ k < 3, k ∈ exStep.dyn) ∧ AmongFree 3 exStep.arbs ∧
    ((exSpace.steps toyMth exParams [exStep, exStep] 0).bodies 1).v ≠ (exSpace.bodies 1).v ∧
    massPos 3 (exSpace.steps toyMth exParams [exStep, exStep] 0).bodies ≠ massPos 3 exSpace.bodies := by
  refine ⟨⟨?_, ?_, ?_, ?_⟩, ?_, ?_, ?_, ?_⟩
  · intro k hk
    simp only [exSpace]
    split <;> (unfold FiniteMass; decide +kernel)
  · intro l hl
    simp only [exSpace, List.mem_singleton] at hl
    subst hl; decide
  · intro l hl
    simp only [exSpace, List.mem_singleton] at hl
    subst hl; decide
  · decide +kernel
  · decide
  · intro l hl
    simp only [exStep, exSpace, List.mem_singleton] at hl
    subst hl; decide
  · decide +kernel
  · decide +kernel

end Cm
