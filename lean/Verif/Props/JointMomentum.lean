import Verif.Props.Joint
import Mathlib.Algebra.BigOperators.Group.Finset.Basic
/-! # C38, C70: joints and momentum -/
set_option linter.unusedSectionVars false
set_option linter.unusedSimpArgs false

namespace Cm
open Spec
variable {K : Type} [Field K] [LinearOrder K] [IsStrictOrderedRing K]

theorem spin_exchange (a b : Body K) (j c : K) : Exchange a b (spin a b j c).1 (spin a b j c).2 := by
  refine ⟨rfl, rfl, fun _ _ => ⟨rfl, rfl⟩, fun _ _ => ⟨rfl, rfl⟩, ?_, ?_⟩
  · intro h
    obtain ⟨m, mi, i, ii, _⟩ := a
    obtain ⟨rfl, rfl⟩ : mi = 0 ∧ ii = 0 := h
    simp [spin]
  · intro h
    obtain ⟨m, mi, i, ii, _⟩ := b
    obtain ⟨rfl, rfl⟩ : mi = 0 ∧ ii = 0 := h
    simp [spin]

theorem rspring_pre_eq (M : Mth K) (s : DampedRotarySpring K) (a b : Body K) (dt : K) :
    ((s.preStep M a b dt).1, (s.preStep M a b dt).2.1) = spin a b (s.torqueFn (a.angle - b.angle) * dt) 1 := by
  simp [DampedRotarySpring.preStep, spin]

theorem rspring_apply_eq (s : DampedRotarySpring K) (a b : Body K) :
    ((s.applyImpulse a b).1, (s.applyImpulse a b).2.1)
      = spin a b (-((s.targetWrn - (a.w - b.w)) * s.wCoef * s.iSum)) 1 := by
  simp [DampedRotarySpring.applyImpulse, spin, sub_eq_add_neg]

/-! ## C38 -/

/-- **C38** Preparing a joint exchanges momentum only. -/
theorem C38_preStep (M : Mth K) (inf dt : K) (jt : Joint K) (a b : Body K) :
    Exchange a b (jt.preStep M inf a b dt).1 (jt.preStep M inf a b dt).2.1 := by
  cases jt with
  | spring j => exact applyImpulses_exchange _ _ _ _ _
  | rotarySpring j =>
    have e := rspring_pre_eq M j a b dt
    have := spin_exchange a b (j.torqueFn (a.angle - b.angle) * dt) 1
    rw [← e] at this
    exact this
  | _ => exact Exchange.refl a b

/-- So does warm starting. -/
theorem C38_cached (jt : Joint K) (t : K) (a b : Body K) :
    Exchange a b (jt.applyCached a b t).1 (jt.applyCached a b t).2 := by
  cases jt with
  | pin j => exact applyImpulses_exchange _ _ _ _ _
  | slide j => exact applyImpulses_exchange _ _ _ _ _
  | pivot j => exact applyImpulses_exchange _ _ _ _ _
  | groove j => exact applyImpulses_exchange _ _ _ _ _
  | gear j => exact spin_exchange _ _ _ _
  | ratchet j => exact spin_exchange _ _ _ _
  | rotaryLimit j => exact spin_exchange _ _ _ _
  | motor j => exact spin_exchange _ _ _ _
  | spring j => exact Exchange.refl a b
  | rotarySpring j => exact Exchange.refl a b

/-- And so does every iteration. -/
theorem C38_iteration (M : Mth K) (dt : K) (jt : Joint K) (a b : Body K) :
    Exchange a b (jt.applyImpulse M a b dt).1 (jt.applyImpulse M a b dt).2.1 := by
  cases jt with
  | pin j => exact applyImpulses_exchange _ _ _ _ _
  | slide j =>
    simp only [Joint.applyImpulse, SlideJoint.applyImpulse]
    split
    · exact Exchange.refl a b
    · exact applyImpulses_exchange _ _ _ _ _
  | pivot j => exact applyImpulses_exchange _ _ _ _ _
  | groove j => exact applyImpulses_exchange _ _ _ _ _
  | gear j => exact spin_exchange _ _ _ _
  | ratchet j =>
    simp only [Joint.applyImpulse, RatchetJoint.applyImpulse]
    split
    · exact Exchange.refl a b
    · exact spin_exchange _ _ _ _
  | rotaryLimit j =>
    simp only [Joint.applyImpulse, RotaryLimitJoint.applyImpulse]
    split
    · exact Exchange.refl a b
    · exact spin_exchange _ _ _ _
  | motor j => exact spin_exchange _ _ _ _
  | spring j => exact applyImpulses_exchange _ _ _ _ _
  | rotarySpring j =>
    have e := rspring_apply_eq j a b
    have := spin_exchange a b (-((j.targetWrn - (a.w - b.w)) * j.wCoef * j.iSum)) 1
    rw [← e] at this
    exact this

/-- Purely angular joints of unit ratio. -/
def Spec.Angular : Joint K → Prop
  | .gear j => j.ratioInv = 1
  | .ratchet _ => True
  | .rotaryLimit _ => True
  | .motor _ => True
  | .rotarySpring _ => True
  | _ => False

theorem spin_spinMom (a b : Body K) (j : K) (ha : FiniteMoment a) (hb : FiniteMoment b) :
    spinMom (spin a b j 1).1 + spinMom (spin a b j 1).2 = spinMom a + spinMom b ∧
    (spin a b j 1).1.v = a.v ∧ (spin a b j 1).2.v = b.v := by
  simp only [FiniteMoment] at *
  simp only [spin, spinMom]
  exact ⟨by linear_combination j * hb - j * ha, trivial, trivial⟩

/-- Purely angular joints conserve spin and leave linear velocities alone, in all three phases. -/
theorem C38_spin (M : Mth K) (inf dt t : K) (jt : Joint K) (hj : Angular jt) (a b : Body K)
    (ha : FiniteMoment a) (hb : FiniteMoment b) (a' b' : Body K)
    (h : (a', b') = ((jt.preStep M inf a b dt).1, (jt.preStep M inf a b dt).2.1) ∨
      (a', b') = jt.applyCached a b t ∨
      (a', b') = ((jt.applyImpulse M a b dt).1, (jt.applyImpulse M a b dt).2.1)) :
    spinMom a' + spinMom b' = spinMom a + spinMom b ∧ a'.v = a.v ∧ b'.v = b.v := by
  have key : (∃ x, (a', b') = spin a b x 1) ∨ (a', b') = (a, b) := by
    cases jt with
    | pin j => exact absurd hj id
    | slide j => exact absurd hj id
    | pivot j => exact absurd hj id
    | groove j => exact absurd hj id
    | spring j => exact absurd hj id
    | gear j =>
      have hj' : j.ratioInv = 1 := hj
      rcases h with h | h | h
      · exact Or.inr h
      · left; rw [h]; simp only [Joint.applyCached, GearJoint.applyCached, hj']; exact ⟨_, rfl⟩
      · left; rw [h]; simp only [Joint.applyImpulse, GearJoint.applyImpulse, hj']; exact ⟨_, rfl⟩
    | ratchet j =>
      rcases h with h | h | h
      · exact Or.inr h
      · exact Or.inl ⟨_, h⟩
      · rw [h]; simp only [Joint.applyImpulse, RatchetJoint.applyImpulse]
        split
        · exact Or.inr rfl
        · exact Or.inl ⟨_, rfl⟩
    | rotaryLimit j =>
      rcases h with h | h | h
      · exact Or.inr h
      · exact Or.inl ⟨_, h⟩
      · rw [h]; simp only [Joint.applyImpulse, RotaryLimitJoint.applyImpulse]
        split
        · exact Or.inr rfl
        · exact Or.inl ⟨_, rfl⟩
    | motor j =>
      rcases h with h | h | h
      · exact Or.inr h
      · exact Or.inl ⟨_, h⟩
      · exact Or.inl ⟨_, h⟩
    | rotarySpring j =>
      rcases h with h | h | h
      · exact Or.inl ⟨_, h.trans (rspring_pre_eq M j a b dt)⟩
      · exact Or.inr h
      · exact Or.inl ⟨_, h.trans (rspring_apply_eq j a b)⟩
  rcases key with ⟨x, hx⟩ | hx
  · have := spin_spinMom a b x ha hb
    rw [← hx] at this
    exact this
  · obtain ⟨rfl, rfl⟩ := Prod.mk.inj hx
    exact ⟨rfl, rfl, rfl⟩

/-- A gear of another ratio does not conserve spin. -/
theorem C38_gear_ratio :
    let j : GearJoint ℚ := { GearJoint.new ⟨1000, 1, 1000⟩ 0 2 with jAcc := 1 }
    FiniteMoment exBlock ∧ FiniteMoment exBall ∧
    spinMom (j.applyCached exBlock exBall 1).1 + spinMom (j.applyCached exBlock exBall 1).2
      ≠ spinMom exBlock + spinMom exBall := by
  refine ⟨?_, ?_, ?_⟩ <;> (try unfold FiniteMoment) <;> (try unfold spinMom) <;> decide +kernel

/-- A motor that meets the hypotheses of `C38_spin` and does something. -/
example : Angular (.motor ⟨⟨10, 1, 1⟩, 3, 1/2, 0⟩ : Joint ℚ) ∧ FiniteMoment exBlock ∧ FiniteMoment exBall ∧
    ((Joint.motor ⟨⟨10, 1, 1⟩, 3, 1/2, 0⟩ : Joint ℚ).applyImpulse toyMth exBlock exBall 1).1 ≠ exBlock := by
  refine ⟨trivial, ?_, ?_, ?_⟩ <;> (try unfold FiniteMoment) <;> decide +kernel

/-! ## Whole space -/

theorem putPair_same (bs : Nat → Body K) (ia ib : Nat) (a b : Body K) (k : Nat) :
    putPair bs ia ib a b k = if k = ia then a else if k = ib then b else bs k := rfl

/-- Total linear momentum of bodies `0 .. N-1`. -/
def Spec.totalMom (N : Nat) (bs : Nat → Body K) : V2 K :=
  ⟨∑ k ∈ Finset.range N, (linMom (bs k)).x, ∑ k ∈ Finset.range N, (linMom (bs k)).y⟩

theorem sum_putPair (N : Nat) (f : Body K → K) (bs : Nat → Body K) (ia ib : Nat) (a b : Body K)
    (hia : ia < N) (hib : ib < N) (hne : ia ≠ ib) (h : f a + f b = f (bs ia) + f (bs ib)) :
    ∑ k ∈ Finset.range N, f (putPair bs ia ib a b k) = ∑ k ∈ Finset.range N, f (bs k) := by
  have m1 : ia ∈ Finset.range N := Finset.mem_range.2 hia
  have m2 : ib ∈ (Finset.range N).erase ia := Finset.mem_erase.2 ⟨fun e => hne e.symm, Finset.mem_range.2 hib⟩
  rw [← Finset.add_sum_erase _ _ m1, ← Finset.add_sum_erase _ _ m2,
    ← Finset.add_sum_erase (Finset.range N) (fun k => f (bs k)) m1,
    ← Finset.add_sum_erase _ (fun k => f (bs k)) m2]
  have e : ∑ k ∈ ((Finset.range N).erase ia).erase ib, f (putPair bs ia ib a b k)
      = ∑ k ∈ ((Finset.range N).erase ia).erase ib, f (bs k) := by
    apply Finset.sum_congr rfl
    intro k hk
    have h1 := Finset.mem_erase.1 hk
    have h2 := Finset.mem_erase.1 h1.2
    simp [putPair, h1.1, h2.1]
  rw [e]
  simp only [putPair, if_true, if_neg (fun e : ib = ia => hne e.symm)]
  linear_combination h

/-- Links join different finite-mass bodies of the space. -/
def Spec.LinksOk {α : Type} (N : Nat) (bs : Nat → Body K) (ls : List (Link α)) : Prop :=
  ∀ l ∈ ls, l.ia < N ∧ l.ib < N ∧ l.ia ≠ l.ib ∧ FiniteMass (bs l.ia) ∧ FiniteMass (bs l.ib)

theorem linkLoop_momentum {α : Type} (f : α → Body K → Body K → Body K × Body K × α)
    (hf : ∀ x a b, Exchange a b (f x a b).1 (f x a b).2.1) (N : Nat) (ls : List (Link α)) :
    ∀ bs : Nat → Body K, LinksOk N bs ls →
    totalMom N (linkLoop f ls bs).1 = totalMom N bs ∧
    (∀ k, SameBut (bs k) ((linkLoop f ls bs).1 k)) ∧
    (linkLoop f ls bs).2.map (fun l => (l.ia, l.ib)) = ls.map (fun l => (l.ia, l.ib)) := by
  induction ls with
  | nil => intro bs _; exact ⟨rfl, fun _ => rfl, rfl⟩
  | cons l ls ih =>
    intro bs h
    obtain ⟨h1, h2, h3, h4, h5⟩ := h l (by simp)
    have ex := hf l.it (bs l.ia) (bs l.ib)
    have hsame : ∀ k, SameBut (bs k) (putPair bs l.ia l.ib (f l.it (bs l.ia) (bs l.ib)).1
        (f l.it (bs l.ia) (bs l.ib)).2.1 k) := by
      intro k
      simp only [putPair]
      split
      · rename_i e; rw [e]; exact ex.sameA
      · split
        · rename_i e; rw [e]; exact ex.sameB
        · rfl
    obtain ⟨i1, i2, i3⟩ := ih (putPair bs l.ia l.ib (f l.it (bs l.ia) (bs l.ib)).1 (f l.it (bs l.ia) (bs l.ib)).2.1)
      (by
        intro m hm
        obtain ⟨g1, g2, g3, g4, g5⟩ := h m (by simp [hm])
        exact ⟨g1, g2, g3, (hsame _).finiteMass.1 g4, (hsame _).finiteMass.1 g5⟩)
    refine ⟨?_, fun k => (hsame k).trans (i2 k), ?_⟩
    · simp only [linkLoop]
      rw [i1]
      unfold totalMom
      rw [sum_putPair N (fun b => (linMom b).x) bs _ _ _ _ h1 h2 h3 (ex.lin h4 h5).1,
        sum_putPair N (fun b => (linMom b).y) bs _ _ _ _ h1 h2 h3 (ex.lin h4 h5).2]
    · simp only [linkLoop, List.map_cons, i3]

theorem Spec.LinksOk.transfer {α : Type} {N : Nat} {bs bs' : Nat → Body K} {ls ls' : List (Link α)}
    (h : LinksOk N bs ls) (hs : ∀ k, SameBut (bs k) (bs' k))
    (hl : ls'.map (fun l => (l.ia, l.ib)) = ls.map (fun l => (l.ia, l.ib))) : LinksOk N bs' ls' := by
  intro l hm
  have : (l.ia, l.ib) ∈ ls'.map (fun l => (l.ia, l.ib)) := List.mem_map.2 ⟨l, hm, rfl⟩
  rw [hl] at this
  obtain ⟨m, hm', e⟩ := List.mem_map.1 this
  simp only [Prod.mk.injEq] at e
  obtain ⟨g1, g2, g3, g4, g5⟩ := h m hm'
  rw [e.1] at g1 g3 g4
  rw [e.2] at g2 g3 g5
  exact ⟨g1, g2, g3, (hs _).finiteMass.1 g4, (hs _).finiteMass.1 g5⟩

theorem Spec.arbExchange (x : Arbiter K) (a b : Body K) :
    Exchange a b (x.applyImpulse a b).1 (x.applyImpulse a b).2.1 := impulseLoop_exchange _ _ _ _ _ _

theorem Spec.arbCachedExchange (x : Arbiter K) (t : K) (a b : Body K) :
    Exchange a b (x.applyCachedImpulse a b t).1 (x.applyCachedImpulse a b t).2 := by
  unfold Arbiter.applyCachedImpulse
  split
  · exact Exchange.refl a b
  · exact cachedLoop_exchange _ _ _ _ _

/-- **C70** In a space whose arbiters and constraints all join finite-mass bodies, the warm start and any number of
solver iterations, over any number of arbiters and joints of all kinds sharing bodies in any way, conserve the
total linear momentum exactly. -/
theorem C70_space_momentum (M : Mth K) (dt prevDT : K) (N n : Nat) (s : SolverState K)
    (ha : LinksOk N s.bodies s.arbs) (hj : LinksOk N s.bodies s.joints) :
    totalMom N ((SolverState.iterate M dt)^[n] (s.cached prevDT dt)).bodies = totalMom N s.bodies := by
  have step : ∀ (f : Arbiter K → Body K → Body K → Body K × Body K × Arbiter K)
      (g : Joint K → Body K → Body K → Body K × Body K × Joint K)
      (_ : ∀ x a b, Exchange a b (f x a b).1 (f x a b).2.1) (_ : ∀ x a b, Exchange a b (g x a b).1 (g x a b).2.1)
      (s : SolverState K), LinksOk N s.bodies s.arbs → LinksOk N s.bodies s.joints →
      let r := linkLoop f s.arbs s.bodies
      let q := linkLoop g s.joints r.1
      totalMom N q.1 = totalMom N s.bodies ∧ LinksOk N q.1 r.2 ∧ LinksOk N q.1 q.2 := by
    intro f g hf hg s ha hj
    obtain ⟨a1, a2, a3⟩ := linkLoop_momentum f hf N s.arbs s.bodies ha
    have hj' := hj.transfer a2 rfl
    obtain ⟨b1, b2, b3⟩ := linkLoop_momentum g hg N s.joints _ hj'
    exact ⟨b1.trans a1, (ha.transfer a2 a3).transfer b2 rfl, hj'.transfer b2 b3⟩
  have h0 := step (fun arb a b => let t := arb.applyCachedImpulse a b (if prevDT ≠ 0 then dt / prevDT else 0); (t.1, t.2, arb))
    (fun jt a b => let t := jt.applyCached a b (if prevDT ≠ 0 then dt / prevDT else 0); (t.1, t.2, jt))
    (fun x a b => arbCachedExchange x _ a b) (fun x a b => C38_cached x _ a b) s ha hj
  suffices H : totalMom N ((SolverState.iterate M dt)^[n] (s.cached prevDT dt)).bodies = totalMom N s.bodies ∧
      LinksOk N ((SolverState.iterate M dt)^[n] (s.cached prevDT dt)).bodies
        ((SolverState.iterate M dt)^[n] (s.cached prevDT dt)).arbs ∧
      LinksOk N ((SolverState.iterate M dt)^[n] (s.cached prevDT dt)).bodies
        ((SolverState.iterate M dt)^[n] (s.cached prevDT dt)).joints from H.1
  induction n with
  | zero => exact h0
  | succ n ih =>
    rw [Function.iterate_succ', Function.comp]
    obtain ⟨i1, i2, i3⟩ := ih
    have h := step (fun arb a b => arb.applyImpulse a b) (fun jt a b => jt.applyImpulse M a b dt)
      arbExchange (fun x a b => C38_iteration M dt x a b) _ i2 i3
    exact ⟨h.1.trans i1, h.2⟩

/-- Three bodies in a row, joined by a contact and a motor that share the middle one. -/
def exSpace : SolverState ℚ :=
  { bodies := fun k => if k = 0 then exBlock else exBall
    arbs := [⟨0, 1, exArb⟩]
    joints := [⟨1, 2, .motor ⟨⟨10, 1, 1⟩, 3, 1/2, 0⟩⟩] }

/-- It meets the hypotheses of `C70_space_momentum`, its momentum is not zero and solving changes velocities. -/
example : LinksOk 3 exSpace.bodies exSpace.arbs ∧ LinksOk 3 exSpace.bodies exSpace.joints ∧
    totalMom 3 exSpace.bodies = ⟨1, -1⟩ ∧
    (((SolverState.iterate toyMth 1)^[2] (exSpace.cached 1 1)).bodies 0).v ≠ (exSpace.bodies 0).v ∧
    (((SolverState.iterate toyMth 1)^[2] (exSpace.cached 1 1)).bodies 2).w ≠ (exSpace.bodies 2).w := by
  refine ⟨?_, ?_, ?_, ?_, ?_⟩
  · intro l hl
    simp only [exSpace, List.mem_singleton] at hl
    subst hl
    refine ⟨?_, ?_, ?_, ?_, ?_⟩ <;> (try unfold FiniteMass) <;> decide +kernel
  · intro l hl
    simp only [exSpace, List.mem_singleton] at hl
    subst hl
    refine ⟨?_, ?_, ?_, ?_, ?_⟩ <;> (try unfold FiniteMass) <;> decide +kernel
  · decide +kernel
  · decide +kernel
  · decide +kernel

end Cm
