import Verif.Props.Kaczmarz
import Verif.Props.Converge
import Verif.Props.JointTarget
/-! # C144: with enough iterations joints all hold together -/
set_option linter.unusedSectionVars false
set_option linter.unusedSimpArgs false
set_option linter.unusedVariables false

namespace Cm
open Spec
variable {K : Type} [Field K] [LinearOrder K] [IsStrictOrderedRing K]

namespace Spec
/-- By how much bodies that move by `x` and `y` miss what their joint asks for: a pin asks for the speed at which its ends part, a pivot for the velocity of its ends
against each other, a gear and a motor for a difference of angular velocities. -/
def misses (jt : Joint K) (x y : K × K × K) : List K :=
  match jt with
  | .pin j => [partSpeed j.n j.r1 j.r2 x y - j.bias]
  | .pivot j => [partSpeed ⟨1, 0⟩ j.r1 j.r2 x y - j.bias.x, partSpeed ⟨0, 1⟩ j.r1 j.r2 x y - j.bias.y]
  | .gear j => [y.2.2 * j.ratio - x.2.2 - j.bias]
  | .motor j => [y.2.2 - x.2.2 + j.rate]
  | _ => []

/-- Pins, pivots, gears and motors that are prepared for their bodies. -/
def Tied (jt : Joint K) (a b : Body K) : Prop :=
  match jt with
  | .pin j => Movable a b ∧ j.n.x ^ 2 + j.n.y ^ 2 = 1 ∧ j.nMass = 1 / kScalar a b j.r1 j.r2 j.n
  | .pivot j => Movable a b ∧ j.k = kTensor a b j.r1 j.r2
  | .gear j => Turnable a b ∧ j.ratio ≠ 0 ∧ j.ratioInv = 1 / j.ratio ∧ j.iSum = 1 / (a.iInv * j.ratioInv + j.ratio * b.iInv)
  | .motor j => Turnable a b ∧ j.iSum = 1 / (a.iInv + b.iInv)
  | _ => False

/-- What is needed to prepare a joint: the ends of a pin are apart, a gear has a ratio. -/
def Preparable (jt : Joint K) (a b : Body K) : Prop :=
  match jt with
  | .pin j => gap a b j.anchorA j.anchorB ≠ V2.zero
  | .pivot _ => True
  | .gear j => j.ratio ≠ 0 ∧ j.ratioInv = 1 / j.ratio
  | .motor _ => True
  | _ => False

/-- The joint is not at its greatest force. -/
def Unstrained (dt : K) (jt : Joint K) : Prop :=
  match jt with
  | .pin j => |j.jnAcc| < j.maxForce * dt
  | .pivot j => j.jAcc.lengthSq < (j.maxForce * dt) * (j.maxForce * dt)
  | .gear j => |j.jAcc| < j.maxForce * dt
  | .motor j => |j.jAcc| < j.maxForce * dt
  | _ => False

/-- With the velocities `w` all joints of `s` have what they ask for, and immovable bodies move as in `s`. -/
structure Agrees (s : SolverState K) (w : Flow K) : Prop where
  still : ∀ k, ((s.bodies k).mInv = 0 → (w k).1 = (s.bodies k).v.x ∧ (w k).2.1 = (s.bodies k).v.y) ∧ ((s.bodies k).iInv = 0 → (w k).2.2 = (s.bodies k).w)
  met : ∀ l ∈ s.joints, ∀ m ∈ misses l.it (w l.ia) (w l.ib), m = 0

/-- The kinetic energy, doubled, of the differences between the velocities of the first `N` bodies and `w`. -/
def effort (N : Nat) (bs : Nat → Body K) (w : Flow K) : K :=
  ∑ k ∈ Finset.range N, (((bs k).v.x - (w k).1) ^ 2 / (bs k).mInv + ((bs k).v.y - (w k).2.1) ^ 2 / (bs k).mInv + ((bs k).w - (w k).2.2) ^ 2 / (bs k).iInv)
end Spec

/-! ## Rows -/

/-- What a joint asks for, as an equation: the factors of the velocities of the two bodies. -/
abbrev Grad (K : Type) := (K × K × K) × (K × K × K)
def Grad.reads (g : Grad K) (x y : K × K × K) : K := g.1.1 * x.1 + g.1.2.1 * x.2.1 + g.1.2.2 * x.2.2 + (g.2.1 * y.1 + g.2.2.1 * y.2.1 + g.2.2.2 * y.2.2)
def gradAt (n r1 r2 : V2 K) : Grad K := ((-n.x, -n.y, -(r1.x * n.y - r1.y * n.x)), (n.x, n.y, r2.x * n.y - r2.y * n.x))

def asked (jt : Joint K) : List (Grad K × K) :=
  match jt with
  | .pin j => [(gradAt j.n j.r1 j.r2, j.bias)]
  | .pivot j => [(gradAt ⟨1, 0⟩ j.r1 j.r2, j.bias.x), (gradAt ⟨0, 1⟩ j.r1 j.r2, j.bias.y)]
  | .gear j => [(((0, 0, -1), (0, 0, j.ratio)), j.bias)]
  | .motor j => [(((0, 0, -1), (0, 0, 1)), -j.rate)]
  | _ => []

theorem misses_eq (jt : Joint K) (x y : K × K × K) : misses jt x y = (asked jt).map fun r => r.1.reads x y - r.2 := by
  cases jt <;> simp only [misses, asked, List.map_cons, List.map_nil, Grad.reads, gradAt, partSpeed] <;> congr 1 <;> (try congr 1) <;> ring

/-- What an impulse does to a body of inverse mass `m` and inverse moment `i`. -/
def weighed (m i : K) (g : K × K × K) : K × K × K := (m * g.1, m * g.2.1, i * g.2.2)

/-- The sum of impulses in the rows of a joint. -/
def made (m i : K) (gs : List (K × K × K)) (cs : List K) : K × K × K := ((gs.zip cs).map fun p => p.2 • weighed m i p.1).sum

/-- What a joint does in an iteration. -/
theorem joint_hits {M : Mth K} (hM : M.Lawful) (dt : K) (jt : Joint K) (a b : Body K) (ht : Tied jt a b) (hs : Unstrained dt (jt.applyImpulse M a b dt).2.2) :
    (∃ cs : List K, Channel.impacts.flow (jt.applyImpulse M a b dt).1 = Channel.impacts.flow a + made a.mInv a.iInv ((asked jt).map fun r => r.1.1) cs ∧
      Channel.impacts.flow (jt.applyImpulse M a b dt).2.1 = Channel.impacts.flow b + made b.mInv b.iInv ((asked jt).map fun r => r.1.2) cs) ∧
    (∀ r ∈ asked jt, r.1.reads (Channel.impacts.flow (jt.applyImpulse M a b dt).1) (Channel.impacts.flow (jt.applyImpulse M a b dt).2.1) = r.2) ∧
    asked (jt.applyImpulse M a b dt).2.2 = asked jt ∧ ∀ a' b', Tied jt a' b' → Tied (jt.applyImpulse M a b dt).2.2 a' b' := by
  cases jt with
  | pin j =>
    obtain ⟨h1, h2, h3⟩ := ht
    refine ⟨⟨[(j.applyImpulse a b dt).2.2.jnAcc - j.jnAcc], ?_, ?_⟩, ?_, rfl, fun a' b' h => h⟩
    · simp only [Channel.impacts, Joint.applyImpulse, PinJoint.applyImpulse, asked, made, weighed, gradAt, applyImpulses, V2.scale, List.map_cons, List.map_nil, List.zip_cons_cons, List.zip_nil_right, List.sum_cons, List.sum_nil]
      ext <;> simp <;> ring
    · simp only [Channel.impacts, Joint.applyImpulse, PinJoint.applyImpulse, asked, made, weighed, gradAt, applyImpulses, V2.scale, List.map_cons, List.map_nil, List.zip_cons_cons, List.zip_nil_right, List.sum_cons, List.sum_nil]
      ext <;> simp <;> ring
    · intro r hr
      obtain rfl : r = (gradAt j.n j.r1 j.r2, j.bias) := by simpa [asked] using hr
      have hl : |(j.applyImpulse a b dt).2.2.jnAcc| < j.maxForce * dt := hs
      have hnon := abs_nonneg (j.applyImpulse a b dt).2.2.jnAcc
      have hc := clamp_inside _ _ _ (by linarith) (abs_lt.1 hl).1 (abs_lt.1 hl).2
      have key := approach_scale a b j.r1 j.r2 j.n h2 ((j.applyImpulse a b dt).2.2.jnAcc - j.jnAcc)
      have hk := ne_of_gt (kScalar_pos h1 j.r1 j.r2 j.n)
      have e : (j.applyImpulse a b dt).2.2.jnAcc - j.jnAcc = (j.bias - approach a b j.r1 j.r2 j.n) * (1 / kScalar a b j.r1 j.r2 j.n) := by
        have : (j.applyImpulse a b dt).2.2.jnAcc = j.jnAcc + (j.bias - normalRelativeVelocity a b j.r1 j.r2 j.n) * j.nMass := hc
        rw [this, normalRelativeVelocity_eq, h3]; ring
      have e2 : ((j.applyImpulse a b dt).2.2.jnAcc - j.jnAcc) * kScalar a b j.r1 j.r2 j.n = j.bias - approach a b j.r1 j.r2 j.n := by rw [e]; field_simp
      rw [e2] at key
      have fin : approach (j.applyImpulse a b dt).1 (j.applyImpulse a b dt).2.1 j.r1 j.r2 j.n = j.bias := by
        refine Eq.trans ?_ (key.trans (by ring)); rfl
      rw [← fin]
      simp only [Joint.applyImpulse, Grad.reads, gradAt, approach, pointVel, Channel.impacts]
      ring
  | pivot j =>
    obtain ⟨h1, h2⟩ := ht
    refine ⟨⟨[(j.applyImpulse M a b dt).2.2.jAcc.x - j.jAcc.x, (j.applyImpulse M a b dt).2.2.jAcc.y - j.jAcc.y], ?_, ?_⟩, ?_, rfl, fun a' b' h => h⟩
    · simp only [Channel.impacts, Joint.applyImpulse, PivotJoint.applyImpulse, asked, made, weighed, gradAt, applyImpulses, V2.scale, V2.sub, List.map_cons, List.map_nil, List.zip_cons_cons, List.zip_nil_right, List.sum_cons, List.sum_nil]
      ext <;> simp <;> ring
    · simp only [Channel.impacts, Joint.applyImpulse, PivotJoint.applyImpulse, asked, made, weighed, gradAt, applyImpulses, V2.scale, V2.sub, List.map_cons, List.map_nil, List.zip_cons_cons, List.zip_nil_right, List.sum_cons, List.sum_nil]
      ext <;> simp <;> ring
    · have hl : (j.applyImpulse M a b dt).2.2.jAcc.lengthSq < (j.maxForce * dt) * (j.maxForce * dt) := hs
      have hc := clampMag_inside hM _ _ hl
      have key := kTensor_solves h1 j.r1 j.r2 j.bias
      have e : (j.applyImpulse M a b dt).2.2.jAcc.sub j.jAcc = (kTensor a b j.r1 j.r2).transform (j.bias.sub (relativeVelocity a b j.r1 j.r2)) := by
        have : (j.applyImpulse M a b dt).2.2.jAcc = j.jAcc.add (j.k.transform (j.bias.sub (relativeVelocity a b j.r1 j.r2))) := hc
        rw [this, h2]
        refine V2.ext ?_ ?_ <;> simp [V2.add, V2.sub]
      have fin : relVel (j.applyImpulse M a b dt).1 (j.applyImpulse M a b dt).2.1 j.r1 j.r2 = j.bias := by
        rw [← e] at key
        exact key
      have fx := congrArg V2.x fin
      have fy := congrArg V2.y fin
      intro r hr
      have hr' : r = (gradAt ⟨1, 0⟩ j.r1 j.r2, j.bias.x) ∨ r = (gradAt ⟨0, 1⟩ j.r1 j.r2, j.bias.y) := by simpa [asked] using hr
      rcases hr' with rfl | rfl
      · rw [← fx]
        simp only [Joint.applyImpulse, Grad.reads, gradAt, relVel, pointVel, Channel.impacts]
        ring
      · rw [← fy]
        simp only [Joint.applyImpulse, Grad.reads, gradAt, relVel, pointVel, Channel.impacts]
        ring
  | gear j =>
    obtain ⟨⟨h1, h2, h3⟩, h4, h5, h6⟩ := ht
    refine ⟨⟨[((j.applyImpulse a b dt).2.2.jAcc - j.jAcc) * j.ratioInv], ?_, ?_⟩, ?_, rfl, fun a' b' h => h⟩
    · simp only [Channel.impacts, Joint.applyImpulse, GearJoint.applyImpulse, asked, made, weighed, spin, List.map_cons, List.map_nil, List.zip_cons_cons, List.zip_nil_right, List.sum_cons, List.sum_nil]
      ext <;> simp <;> ring
    · simp only [Channel.impacts, Joint.applyImpulse, GearJoint.applyImpulse, asked, made, weighed, spin, List.map_cons, List.map_nil, List.zip_cons_cons, List.zip_nil_right, List.sum_cons, List.sum_nil, h5]
      ext <;> simp <;> field_simp
    · intro r hr
      obtain rfl : r = (((0, 0, -1), (0, 0, j.ratio)), j.bias) := by simpa [asked] using hr
      have hl : |(j.applyImpulse a b dt).2.2.jAcc| < j.maxForce * dt := hs
      have hnon := abs_nonneg (j.applyImpulse a b dt).2.2.jAcc
      have hc := clamp_inside _ _ _ (by linarith) (abs_lt.1 hl).1 (abs_lt.1 hl).2
      have e : (j.applyImpulse a b dt).2.2.jAcc - j.jAcc = (j.bias - (b.w * j.ratio - a.w)) * j.iSum := by
        have : (j.applyImpulse a b dt).2.2.jAcc = j.jAcc + (j.bias - (b.w * j.ratio - a.w)) * j.iSum := hc
        rw [this]; ring
      have hden : a.iInv * j.ratioInv + j.ratio * b.iInv ≠ 0 := by
        rw [h5]
        intro e
        have e2 : a.iInv + j.ratio ^ 2 * b.iInv = 0 := by
          have : (a.iInv * (1 / j.ratio) + j.ratio * b.iInv) * j.ratio = a.iInv + j.ratio ^ 2 * b.iInv := by field_simp
          rw [← this, e, zero_mul]
        have hr2 : 0 < j.ratio ^ 2 := by positivity
        have h4' : 0 ≤ j.ratio ^ 2 * b.iInv := by positivity
        have h5' : j.ratio ^ 2 * b.iInv = 0 := by linarith
        have h6' : b.iInv = 0 := (mul_eq_zero.1 h5').resolve_left (ne_of_gt hr2)
        rw [h6'] at h3 e2
        linarith
      have w1 : (j.applyImpulse a b dt).1.w = a.w - ((j.applyImpulse a b dt).2.2.jAcc - j.jAcc) * a.iInv * j.ratioInv := rfl
      have w2 : (j.applyImpulse a b dt).2.1.w = b.w + ((j.applyImpulse a b dt).2.2.jAcc - j.jAcc) * b.iInv := rfl
      rw [e] at w1 w2
      have e3 : j.iSum * (a.iInv * j.ratioInv + j.ratio * b.iInv) = 1 := by rw [h6]; field_simp
      simp only [Joint.applyImpulse, Grad.reads, Channel.impacts, w1, w2]
      linear_combination (j.bias - (b.w * j.ratio - a.w)) * e3
  | motor j =>
    obtain ⟨⟨h1, h2, h3⟩, h4⟩ := ht
    refine ⟨⟨[(j.applyImpulse a b dt).2.2.jAcc - j.jAcc], ?_, ?_⟩, ?_, rfl, fun a' b' h => h⟩
    · simp only [Channel.impacts, Joint.applyImpulse, SimpleMotor.applyImpulse, asked, made, weighed, spin, List.map_cons, List.map_nil, List.zip_cons_cons, List.zip_nil_right, List.sum_cons, List.sum_nil]
      ext <;> simp <;> ring
    · simp only [Channel.impacts, Joint.applyImpulse, SimpleMotor.applyImpulse, asked, made, weighed, spin, List.map_cons, List.map_nil, List.zip_cons_cons, List.zip_nil_right, List.sum_cons, List.sum_nil]
      ext <;> simp
    · intro r hr
      obtain rfl : r = (((0, 0, -1), (0, 0, 1)), -j.rate) := by simpa [asked] using hr
      have hl : |(j.applyImpulse a b dt).2.2.jAcc| < j.maxForce * dt := hs
      have hnon := abs_nonneg (j.applyImpulse a b dt).2.2.jAcc
      have hc := clamp_inside _ _ _ (by linarith) (abs_lt.1 hl).1 (abs_lt.1 hl).2
      have e : (j.applyImpulse a b dt).2.2.jAcc - j.jAcc = -(b.w - a.w + j.rate) * j.iSum := by
        have : (j.applyImpulse a b dt).2.2.jAcc = j.jAcc + -(b.w - a.w + j.rate) * j.iSum := hc
        rw [this]; ring
      have w1 : (j.applyImpulse a b dt).1.w = a.w - ((j.applyImpulse a b dt).2.2.jAcc - j.jAcc) * a.iInv * 1 := rfl
      have w2 : (j.applyImpulse a b dt).2.1.w = b.w + ((j.applyImpulse a b dt).2.2.jAcc - j.jAcc) * b.iInv := rfl
      rw [e] at w1 w2
      have e3 : j.iSum * (a.iInv + b.iInv) = 1 := by rw [h4]; field_simp
      simp only [Joint.applyImpulse, Grad.reads, Channel.impacts, w1, w2]
      linear_combination -(b.w - a.w + j.rate) * e3
  | slide j => exact ht.elim
  | groove j => exact ht.elim
  | ratchet j => exact ht.elim
  | rotaryLimit j => exact ht.elim
  | spring j => exact ht.elim
  | rotarySpring j => exact ht.elim

/-! ## Directions -/

/-- What a unit impulse in a row does. -/
def pulls (μ ι : Nat → K) (ia ib : Nat) (g : Grad K) : Flow K := fun k =>
  if k = ib then weighed (μ k) (ι k) g.2 else if k = ia then weighed (μ k) (ι k) g.1 else 0

theorem pulls_reach (μ ι : Nat → K) (ia ib : Nat) (g : Grad K) : Reach μ ι (pulls μ ι ia ib g) := by
  intro k
  simp only [pulls, weighed]
  constructor
  · intro h; rw [h]; split_ifs <;> simp
  · intro h; rw [h]; split_ifs <;> simp

theorem form_pulls {N : Nat} {μ ι : Nat → K} {ia ib : Nat} (g : Grad K) (ha : ia < N) (hb : ib < N) (hne : ia ≠ ib) {x : Flow K} (hx : Reach μ ι x) :
    form N μ ι (pulls μ ι ia ib g) x = g.reads (x ia) (x ib) := by
  rw [form_apply, Finset.sum_eq_add ia ib hne]
  · have e1 : pulls μ ι ia ib g ib = weighed (μ ib) (ι ib) g.2 := by simp [pulls]
    have e2 : pulls μ ι ia ib g ia = weighed (μ ia) (ι ia) g.1 := by simp [pulls, hne]
    rw [e1, e2]
    obtain ⟨a1, a2⟩ := hx ia
    obtain ⟨b1, b2⟩ := hx ib
    simp only [weighed]
    rw [cancel fun h => (a1 h).1, cancel fun h => (a1 h).2, cancel a2, cancel fun h => (b1 h).1, cancel fun h => (b1 h).2, cancel b2]
    simp only [Grad.reads]
  · intro k _ hk
    simp [pulls, hk.1, hk.2]
  · intro h; exact absurd (Finset.mem_range.2 ha) h
  · intro h; exact absurd (Finset.mem_range.2 hb) h

/-- The bodies of a joint and what it asks for. -/
def tie (l : Link (Joint K)) : Nat × Nat × List (Grad K × K) := (l.ia, l.ib, asked l.it)
def dirs (μ ι : Nat → K) (t : Nat × Nat × List (Grad K × K)) : List (Flow K) := t.2.2.map fun r => pulls μ ι t.1 t.2.1 r.1

theorem reach_made {μ ι : Nat → K} {ts : List (Nat × Nat × List (Grad K × K))} {x : Flow K} (h : x ∈ Tie.Made (K := K) (ts.map (dirs μ ι)).flatten) : Reach μ ι x := by
  induction h using Submodule.span_induction with
  | mem x hx =>
    obtain ⟨ds, h1, h2⟩ := List.mem_flatten.1 hx
    obtain ⟨t, -, rfl⟩ := List.mem_map.1 h1
    obtain ⟨r, -, rfl⟩ := List.mem_map.1 h2
    exact pulls_reach _ _ _ _ _
  | zero => exact reach_zero _ _
  | add a b _ _ ha hb => have := ha.add hb 1; rwa [one_smul] at this
  | smul c a _ ha => have := (reach_zero μ ι).add ha c; rwa [zero_add] at this

theorem reads_sub (g : Grad K) (x y x' y' : K × K × K) : g.reads (x - x') (y - y') = g.reads x y - g.reads x' y' := by
  simp only [Grad.reads, Prod.fst_sub, Prod.snd_sub]; ring

/-- The velocities `w` meet an equation of a joint. -/
def MeetsAll (w : Flow K) (t : Nat × Nat × List (Grad K × K)) : Prop := ∀ r ∈ t.2.2, r.1.reads (w t.1) (w t.2.1) = r.2

theorem met_iff (l : Link (Joint K)) (w : Flow K) : (∀ m ∈ misses l.it (w l.ia) (w l.ib), m = 0) ↔ MeetsAll w (tie l) := by
  rw [misses_eq]
  simp only [List.mem_map, forall_exists_index, and_imp, forall_apply_eq_imp_iff₂, sub_eq_zero]
  exact Iff.rfl

/-- A joint takes a step. -/
theorem joint_step {M : Mth K} (hM : M.Lawful) (dt : K) {N : Nat} {μ ι : Nat → K} {w : Flow K} {l : Link (Joint K)} {bs : Nat → Body K}
    (ha : l.ia < N) (hb : l.ib < N) (hne : l.ia ≠ l.ib) (hm : ∀ k, (bs k).mInv = μ k ∧ (bs k).iInv = ι k) (ht : Tied l.it (bs l.ia) (bs l.ib))
    (hs : Unstrained dt (l.it.applyImpulse M (bs l.ia) (bs l.ib) dt).2.2) (hw : MeetsAll w (tie l)) (hr : Reach μ ι (away .impacts bs w)) :
    let t := l.it.applyImpulse M (bs l.ia) (bs l.ib) dt
    let x' := away .impacts (putPair bs l.ia l.ib t.1 t.2.1) w
    Tie.Step (form N μ ι) (dirs μ ι (tie l)) (away .impacts bs w) x' ∧ Reach μ ι x' := by
  intro t x'
  obtain ⟨⟨cs, c1, c2⟩, h2, -, -⟩ := joint_hits hM dt l.it (bs l.ia) (bs l.ib) ht hs
  have hx : x' = away .impacts bs w + (((asked l.it).zip cs).map fun p => p.2 • pulls μ ι l.ia l.ib p.1.1).sum := by
    have at_ : ∀ (rs : List (Grad K × K)) (cs : List K) k, ((rs.zip cs).map fun p => p.2 • pulls μ ι l.ia l.ib p.1.1).sum k =
        if k = l.ib then made (μ k) (ι k) (rs.map fun r => r.1.2) cs else if k = l.ia then made (μ k) (ι k) (rs.map fun r => r.1.1) cs else 0 := by
      intro rs
      induction rs with
      | nil => intro cs k; simp [made]
      | cons r rs ih =>
        intro cs k
        cases cs with
        | nil => simp [made]
        | cons c cs =>
          simp only [List.zip_cons_cons, List.map_cons, List.sum_cons, Pi.add_apply, Pi.smul_apply, ih, pulls, made]
          split_ifs <;> simp
    funext k
    rw [Pi.add_apply, at_]
    simp only [x', away, putPair]
    by_cases h1 : k = l.ia
    · subst h1
      rw [if_pos rfl, if_neg hne, if_pos rfl, c1, (hm _).1, (hm _).2]
      abel
    · rw [if_neg h1, if_neg h1]
      by_cases h2 : k = l.ib
      · subst h2
        rw [if_pos rfl, if_pos rfl, c2, (hm _).1, (hm _).2]
        abel
      · rw [if_neg h2, if_neg h2, add_zero]
  have mem : x' - away .impacts bs w ∈ Tie.Made (K := K) (dirs μ ι (tie l)) := by
    rw [hx, add_sub_cancel_left]
    refine list_sum_mem fun v hv => ?_
    obtain ⟨p, hp, rfl⟩ := List.mem_map.1 hv
    refine Submodule.smul_mem _ _ (Submodule.subset_span ?_)
    exact List.mem_map.2 ⟨p.1, (List.of_mem_zip (a := p.1) (b := p.2) hp).1, rfl⟩
  have hr' : Reach μ ι x' := by
    have m2 : x' - away .impacts bs w ∈ Tie.Made (K := K) ([tie l].map (dirs μ ι)).flatten := by simpa using mem
    have := hr.add (reach_made m2) 1
    rwa [one_smul, add_sub_cancel] at this
  refine ⟨⟨mem, fun d hd => ?_⟩, hr'⟩
  obtain ⟨r, hr1, rfl⟩ := List.mem_map.1 hd
  show form N μ ι (pulls μ ι l.ia l.ib r.1) x' = 0
  rw [form_pulls r.1 ha hb hne hr']
  have e1 : x' l.ia = Channel.impacts.flow t.1 - w l.ia := by simp [x', away, putPair]
  have e2 : x' l.ib = Channel.impacts.flow t.2.1 - w l.ib := by simp [x', away, putPair, hne.symm]
  have e3 : r.1.reads (w l.ia) (w l.ib) = r.2 := hw r hr1
  rw [e1, e2, reads_sub, h2 r hr1, e3, sub_self]

theorem tied_same {jt : Joint K} {a b a' b' : Body K} (ha : SameBut a a') (hb : SameBut b b') (h : Tied jt a b) : Tied jt a' b' := by
  rw [ha, hb]; cases jt <;> exact h

theorem joints_pass {M : Mth K} (hM : M.Lawful) (dt : K) {N : Nat} {μ ι : Nat → K} {w : Flow K} (B0 : Nat → Body K) (hm : ∀ k, (B0 k).mInv = μ k ∧ (B0 k).iInv = ι k)
    (js : List (Link (Joint K))) : ∀ bs : Nat → Body K, (∀ k, SameBut (B0 k) (bs k)) →
    (∀ l ∈ js, l.ia < N ∧ l.ib < N ∧ l.ia ≠ l.ib ∧ Tied l.it (B0 l.ia) (B0 l.ib) ∧ MeetsAll w (tie l)) →
    (∀ l ∈ (linkLoop (fun jt a b => jt.applyImpulse M a b dt) js bs).2, Unstrained dt l.it) → Reach μ ι (away .impacts bs w) →
    Tie.Pass (form N μ ι) ((js.map tie).map (dirs μ ι)) (away .impacts bs w) (away .impacts (linkLoop (fun jt a b => jt.applyImpulse M a b dt) js bs).1 w) ∧
    (linkLoop (fun jt a b => jt.applyImpulse M a b dt) js bs).2.map tie = js.map tie ∧
    (∀ l ∈ (linkLoop (fun jt a b => jt.applyImpulse M a b dt) js bs).2, l.ia < N ∧ l.ib < N ∧ l.ia ≠ l.ib ∧ Tied l.it (B0 l.ia) (B0 l.ib) ∧ MeetsAll w (tie l)) ∧
    Reach μ ι (away .impacts (linkLoop (fun jt a b => jt.applyImpulse M a b dt) js bs).1 w) := by
  induction js with
  | nil => intro bs _ _ _ hr; exact ⟨rfl, rfl, by simp [linkLoop], hr⟩
  | cons l ls ih =>
    intro bs hb hl hs hr
    obtain ⟨g1, g2, g3, g4, g5⟩ := hl l (by simp)
    simp only [linkLoop] at hs ⊢
    have gt := tied_same (hb l.ia) (hb l.ib) g4
    have s1 := hs _ (List.mem_cons_self ..)
    dsimp only at s1
    have hm' : ∀ k, (bs k).mInv = μ k ∧ (bs k).iInv = ι k := fun k => ⟨(hb k).masses.2.1.trans (hm k).1, (hb k).masses.2.2.2.1.trans (hm k).2⟩
    obtain ⟨st, rr⟩ := joint_step hM dt g1 g2 g3 hm' gt s1 g5 hr
    obtain ⟨-, -, h3, h4⟩ := joint_hits hM dt l.it (bs l.ia) (bs l.ib) gt s1
    have nd := jointNudge M dt l.it (bs l.ia) (bs l.ib)
    have hb1 : ∀ k, SameBut (B0 k) (putPair bs l.ia l.ib (l.it.applyImpulse M (bs l.ia) (bs l.ib) dt).1 (l.it.applyImpulse M (bs l.ia) (bs l.ib) dt).2.1 k) := by
      intro k
      have := linkLoop_place (fun jt a b => jt.applyImpulse M a b dt) (fun x a b => jointNudge M dt x a b) [l] bs k
      simp only [linkLoop] at this
      exact (hb k).trans this
    obtain ⟨i1, i2, i3, i4⟩ := ih _ hb1 (fun m hm => hl m (by simp [hm])) (fun m hm => hs m (List.mem_cons_of_mem _ hm)) rr
    have et : tie { l with it := (l.it.applyImpulse M (bs l.ia) (bs l.ib) dt).2.2 } = tie l := by
      simp only [tie, h3]
    refine ⟨⟨_, st, i1⟩, ?_, ?_, i4⟩
    · rw [List.map_cons, i2, et]; rfl
    · intro m hm2
      rcases List.mem_cons.1 hm2 with rfl | hm2
      · exact ⟨g1, g2, g3, h4 _ _ g4, by rw [et]; exact g5⟩
      · exact i3 m hm2

/-- What an iteration of a world without contacts does. -/
theorem iterate_once {M : Mth K} (hM : M.Lawful) (dt : K) {N : Nat} {s : SolverState K} {w : Flow K} (t : SolverState K) (h1 : t.arbs = []) (h2 : t.joints.map tie = s.joints.map tie)
    (h3 : ∀ k, SameBut (s.bodies k) (t.bodies k))
    (h4 : ∀ l ∈ t.joints, l.ia < N ∧ l.ib < N ∧ l.ia ≠ l.ib ∧ Tied l.it (s.bodies l.ia) (s.bodies l.ib) ∧ MeetsAll w (tie l))
    (h5 : Reach (fun k => (s.bodies k).mInv) (fun k => (s.bodies k).iInv) (away .impacts t.bodies w)) (h6 : ∀ l ∈ (t.iterate M dt).joints, Unstrained dt l.it) :
    ((t.iterate M dt).arbs = [] ∧ (t.iterate M dt).joints.map tie = s.joints.map tie ∧ (∀ k, SameBut (s.bodies k) ((t.iterate M dt).bodies k)) ∧
      (∀ l ∈ (t.iterate M dt).joints, l.ia < N ∧ l.ib < N ∧ l.ia ≠ l.ib ∧ Tied l.it (s.bodies l.ia) (s.bodies l.ib) ∧ MeetsAll w (tie l)) ∧
      Reach (fun k => (s.bodies k).mInv) (fun k => (s.bodies k).iInv) (away .impacts (t.iterate M dt).bodies w)) ∧
    Tie.Pass (form N (fun k => (s.bodies k).mInv) (fun k => (s.bodies k).iInv)) ((s.joints.map tie).map (dirs (fun k => (s.bodies k).mInv) (fun k => (s.bodies k).iInv)))
      (away .impacts t.bodies w) (away .impacts (t.iterate M dt).bodies w) := by
  have s1 : (t.iterate M dt).arbs = [] := by simp [SolverState.iterate, h1, linkLoop]
  have s2 : (t.iterate M dt).bodies = (linkLoop (fun jt a b => jt.applyImpulse M a b dt) t.joints t.bodies).1 := by simp [SolverState.iterate, h1, linkLoop]
  have s3 : (t.iterate M dt).joints = (linkLoop (fun jt a b => jt.applyImpulse M a b dt) t.joints t.bodies).2 := by simp [SolverState.iterate, h1, linkLoop]
  obtain ⟨j1, j2, j3, j4⟩ := joints_pass hM dt (N := N) (w := w) s.bodies (fun k => ⟨rfl, rfl⟩) t.joints t.bodies h3 h4 (by rw [s3] at h6; exact h6) h5
  rw [← s3] at j2 j3
  rw [← s2] at j1 j4
  rw [h2] at j1
  refine ⟨⟨s1, j2.trans h2, fun k => ?_, j3, j4⟩, j1⟩
  rw [s2]
  exact (h3 k).trans (linkLoop_place (fun jt a b => jt.applyImpulse M a b dt) (fun x a b => jointNudge M dt x a b) t.joints _ k)

/-- What the iterations leave alone. -/
theorem iterate_keeps {M : Mth K} (hM : M.Lawful) (dt : K) {N : Nat} {s : SolverState K} {w : Flow K} (hc : s.arbs = [])
    (hl : ∀ l ∈ s.joints, l.ia < N ∧ l.ib < N ∧ l.ia ≠ l.ib ∧ Tied l.it (s.bodies l.ia) (s.bodies l.ib) ∧ MeetsAll w (tie l))
    (hr : Reach (fun k => (s.bodies k).mInv) (fun k => (s.bodies k).iInv) (away .impacts s.bodies w)) (n : Nat)
    (hs : ∀ m < n, ∀ l ∈ ((SolverState.iterate M dt)^[m + 1] s).joints, Unstrained dt l.it) :
    let t := (SolverState.iterate M dt)^[n] s
    t.arbs = [] ∧ t.joints.map tie = s.joints.map tie ∧ (∀ k, SameBut (s.bodies k) (t.bodies k)) ∧
      (∀ l ∈ t.joints, l.ia < N ∧ l.ib < N ∧ l.ia ≠ l.ib ∧ Tied l.it (s.bodies l.ia) (s.bodies l.ib) ∧ MeetsAll w (tie l)) ∧
      Reach (fun k => (s.bodies k).mInv) (fun k => (s.bodies k).iInv) (away .impacts t.bodies w) := by
  induction n with
  | zero => exact ⟨hc, rfl, fun k => rfl, hl, hr⟩
  | succ n ih =>
    obtain ⟨i1, i2, i3, i4, i5⟩ := ih fun m hm => hs m (by omega)
    have hn := hs n (by omega)
    rw [Function.iterate_succ_apply'] at hn ⊢
    exact (iterate_once hM dt _ i1 i2 i3 i4 i5 hn).1

/-- The iterations of a world without contacts are passes. -/
theorem iterate_pass {M : Mth K} (hM : M.Lawful) (dt : K) {N : Nat} {s : SolverState K} {w : Flow K} (hc : s.arbs = [])
    (hl : ∀ l ∈ s.joints, l.ia < N ∧ l.ib < N ∧ l.ia ≠ l.ib ∧ Tied l.it (s.bodies l.ia) (s.bodies l.ib) ∧ MeetsAll w (tie l))
    (hr : Reach (fun k => (s.bodies k).mInv) (fun k => (s.bodies k).iInv) (away .impacts s.bodies w)) (n : Nat)
    (hs : ∀ m ≤ n, ∀ l ∈ ((SolverState.iterate M dt)^[m + 1] s).joints, Unstrained dt l.it) :
    let t := (SolverState.iterate M dt)^[n] s
    (t.arbs = [] ∧ t.joints.map tie = s.joints.map tie ∧ (∀ k, SameBut (s.bodies k) (t.bodies k)) ∧
      (∀ l ∈ t.joints, l.ia < N ∧ l.ib < N ∧ l.ia ≠ l.ib ∧ Tied l.it (s.bodies l.ia) (s.bodies l.ib) ∧ MeetsAll w (tie l)) ∧
      Reach (fun k => (s.bodies k).mInv) (fun k => (s.bodies k).iInv) (away .impacts t.bodies w)) ∧
    Tie.Pass (form N (fun k => (s.bodies k).mInv) (fun k => (s.bodies k).iInv)) ((s.joints.map tie).map (dirs (fun k => (s.bodies k).mInv) (fun k => (s.bodies k).iInv)))
      (away .impacts t.bodies w) (away .impacts ((SolverState.iterate M dt)^[n + 1] s).bodies w) := by
  have inv := iterate_keeps hM dt hc hl hr n fun m hm => hs m hm.le
  refine ⟨inv, ?_⟩
  obtain ⟨i1, i2, i3, i4, i5⟩ := inv
  have hn := hs n le_rfl
  rw [Function.iterate_succ_apply'] at hn ⊢
  exact (iterate_once hM dt _ i1 i2 i3 i4 i5 hn).2

/-! ## The theorems -/

theorem bound_joints (js : List (Link (Joint K))) : ∃ N, ∀ l ∈ js, l.ia < N ∧ l.ib < N := by
  induction js with
  | nil => exact ⟨0, by simp⟩
  | cons l ls ih =>
    obtain ⟨N, h⟩ := ih
    refine ⟨max N (max (l.ia + 1) (l.ib + 1)), fun m hm => ?_⟩
    rcases List.mem_cons.1 hm with rfl | hm
    · omega
    · have := h m hm; omega

theorem effort_eq {N : Nat} {bs : Nat → Body K} {μ ι : Nat → K} (hm : ∀ k, (bs k).mInv = μ k ∧ (bs k).iInv = ι k) (w : Flow K) :
    effort N bs w = form N μ ι (away .impacts bs w) (away .impacts bs w) := by
  rw [effort, form_apply]
  refine Finset.sum_congr rfl fun k _ => ?_
  simp only [away, Channel.impacts, Prod.fst_sub, Prod.snd_sub, (hm k).1, (hm k).2, sq]

theorem agrees_reach {s : SolverState K} {w : Flow K} (h : Agrees s w) : Reach (fun k => (s.bodies k).mInv) (fun k => (s.bodies k).iInv) (away .impacts s.bodies w) := by
  intro k
  obtain ⟨h1, h2⟩ := h.still k
  simp only [away, Channel.impacts, Prod.fst_sub, Prod.snd_sub, sub_eq_zero]
  exact ⟨fun e => ⟨((h1 e).1).symm, ((h1 e).2).symm⟩, fun e => (h2 e).symm⟩

/-- Velocities whose energy is small are small. -/
theorem flow_small {N : Nat} {μ ι : Nat → K} (hm : ∀ k, 0 ≤ μ k ∧ 0 ≤ ι k) {x : Flow K} (hx : Reach μ ι x) {ε : K} (hε : 0 < ε)
    (h : form N μ ι x x ≤ ε ^ 2 / (∑ k ∈ Finset.range N, (μ k + ι k) + 1)) {k : Nat} (hk : k < N) : |(x k).1| ≤ ε ∧ |(x k).2.1| ≤ ε ∧ |(x k).2.2| ≤ ε := by
  set S : K := ∑ k ∈ Finset.range N, (μ k + ι k) + 1 with hS
  have S1 : 1 ≤ S := by
    have : 0 ≤ ∑ k ∈ Finset.range N, (μ k + ι k) := Finset.sum_nonneg fun k _ => add_nonneg (hm k).1 (hm k).2
    linarith
  rw [form_apply] at h
  set f := fun k => (x k).1 * (x k).1 / μ k + (x k).2.1 * (x k).2.1 / μ k + (x k).2.2 * (x k).2.2 / ι k with hf
  have nn : ∀ j, 0 ≤ (x j).1 * (x j).1 / μ j ∧ 0 ≤ (x j).2.1 * (x j).2.1 / μ j ∧ 0 ≤ (x j).2.2 * (x j).2.2 / ι j := fun j =>
    ⟨div_nonneg (mul_self_nonneg _) (hm j).1, div_nonneg (mul_self_nonneg _) (hm j).1, div_nonneg (mul_self_nonneg _) (hm j).2⟩
  have one : f k ≤ ε ^ 2 / S := le_trans (Finset.single_le_sum (f := f) (fun j _ => by have := nn j; simp only [hf]; linarith [this.1, this.2.1, this.2.2]) (Finset.mem_range.2 hk)) h
  have wk : μ k + ι k ≤ S := by
    have := Finset.single_le_sum (f := fun k => μ k + ι k) (s := Finset.range N) (fun j _ => add_nonneg (hm j).1 (hm j).2) (Finset.mem_range.2 hk)
    linarith
  have small : ∀ w y : K, 0 ≤ w → w ≤ S → (w = 0 → y = 0) → y * y / w ≤ ε ^ 2 / S → |y| ≤ ε := by
    intro w y hw hwS h0 h
    rcases hw.eq_or_lt with hz | hpos
    · rw [h0 hz.symm, abs_zero]; exact hε.le
    · rw [div_le_iff₀ hpos] at h
      have : ε ^ 2 / S * w ≤ ε ^ 2 := by
        rw [div_mul_eq_mul_div, div_le_iff₀ (by linarith)]
        exact mul_le_mul_of_nonneg_left hwS (sq_nonneg _)
      exact abs_le_of_sq_le_sq (by nlinarith) hε.le
  obtain ⟨n1, n2, n3⟩ := nn k
  simp only [hf] at one
  exact ⟨small (μ k) _ (hm k).1 (by linarith [(hm k).2]) (fun h => ((hx k).1 h).1) (by linarith), small (μ k) _ (hm k).1 (by linarith [(hm k).2]) (fun h => ((hx k).1 h).2) (by linarith),
    small (ι k) _ (hm k).2 (by linarith [(hm k).1]) (hx k).2 (by linarith)⟩

theorem made_far {μ ι : Nat → K} {ts : List (Nat × Nat × List (Grad K × K))} {N : Nat} (hN : ∀ t ∈ ts, t.1 < N ∧ t.2.1 < N) {x : Flow K}
    (h : x ∈ Tie.Made (K := K) (ts.map (dirs μ ι)).flatten) {k : Nat} (hk : N ≤ k) : x k = 0 := by
  induction h using Submodule.span_induction with
  | mem x hx =>
    obtain ⟨ds, h1, h2⟩ := List.mem_flatten.1 hx
    obtain ⟨t, ht, rfl⟩ := List.mem_map.1 h1
    obtain ⟨r, -, rfl⟩ := List.mem_map.1 h2
    have := hN t ht
    simp only [pulls]
    rw [if_neg (by omega), if_neg (by omega)]
  | zero => rfl
  | add a b _ _ ha hb => rw [Pi.add_apply, ha, hb, add_zero]
  | smul c a _ ha => rw [Pi.smul_apply, ha, smul_zero]

/-- If the joints can all have what they ask for, impulses in the joints can bring it about. -/
theorem least_change (s : SolverState K) (hm : ∀ k, 0 ≤ (s.bodies k).mInv ∧ 0 ≤ (s.bodies k).iInv)
    (hj : ∀ l ∈ s.joints, l.ia ≠ l.ib) (hw : ∃ w, Agrees s w) :
    ∃ u, Agrees s u ∧ away .impacts s.bodies u ∈ Tie.Made (K := K) ((s.joints.map tie).map (dirs (fun k => (s.bodies k).mInv) (fun k => (s.bodies k).iInv))).flatten := by
  obtain ⟨w, hw⟩ := hw
  set μ := fun k => (s.bodies k).mInv with hμ
  set ι := fun k => (s.bodies k).iInv with hι
  set L := (s.joints.map tie).map (dirs μ ι) with hL
  have sym := fun N => form_sym N μ ι
  have psd := fun N => form_nonneg (N := N) (μ := μ) (ι := ι) (fun k => (hm k).1) (fun k => (hm k).2)
  obtain ⟨N0, hN0⟩ := bound_joints s.joints
  obtain ⟨p, p1, p2⟩ := Tie.part (B := form N0 μ ι) (sym N0) (psd N0) (away .impacts s.bodies w) L.flatten
  have pr : Reach μ ι p := reach_made p1
  have wr := agrees_reach hw
  set u : Flow K := fun k => Channel.impacts.flow (s.bodies k) - p k with hu
  have au : away .impacts s.bodies u = p := by funext k; simp only [away, hu]; abel
  have uw : away .impacts s.bodies w - p = u - w := by funext k; simp only [away, hu, Pi.sub_apply]; abel
  have row : ∀ l ∈ s.joints, ∀ r ∈ asked l.it, pulls μ ι l.ia l.ib r.1 ∈ L.flatten := fun l hl r hr =>
    List.mem_flatten.2 ⟨_, List.mem_map.2 ⟨_, List.mem_map.2 ⟨l, hl, rfl⟩, rfl⟩, List.mem_map.2 ⟨r, hr, rfl⟩⟩
  have uwr : Reach μ ι (u - w) := by
    rw [← uw]
    have := wr.add pr (-1)
    rwa [neg_one_smul, ← sub_eq_add_neg] at this
  have ua : Agrees s u := by
    refine ⟨fun k => ?_, fun l hl => ?_⟩
    · obtain ⟨q1, q2⟩ := pr k
      refine ⟨fun e => ?_, fun e => ?_⟩
      · obtain ⟨q3, q4⟩ := q1 e
        simp [hu, Channel.impacts, q3, q4]
      · simp [hu, Channel.impacts, q2 e]
    · rw [met_iff]
      intro r hr
      have h0 := p2 _ (row l hl r hr)
      rw [uw, form_pulls r.1 (hN0 l hl).1 (hN0 l hl).2 (hj l hl) uwr] at h0
      have h1 := ((met_iff l w).1 (hw.met l hl)) r hr
      simp only [Pi.sub_apply, reads_sub] at h0
      simp only [tie] at h1 ⊢
      linarith
  exact ⟨u, ua, by rw [au]; exact p1⟩

/-- **C144**. Pins, pivots, gears and motors in any number and arrangement, none at its greatest force, and no contacts: if the velocities can be such that every joint has what it asks for,
then the iterations come as near as one likes to such velocities. These are the ones to which the present velocities have to be changed least.
What is missing shrinks by a fixed factor in each iteration. -/
theorem C144_joints_meet [Archimedean K] {M : Mth K} (hM : M.Lawful) (dt : K) (s : SolverState K) (hc : s.arbs = []) (hm : ∀ k, 0 ≤ (s.bodies k).mInv ∧ 0 ≤ (s.bodies k).iInv)
    (hj : ∀ l ∈ s.joints, l.ia ≠ l.ib ∧ Tied l.it (s.bodies l.ia) (s.bodies l.ib))
    (hf : ∀ n, ∀ l ∈ ((SolverState.iterate M dt)^[n + 1] s).joints, Unstrained dt l.it) (hw : ∃ w, Agrees s w) :
    ∃ u, Agrees s u ∧ (∀ ε > 0, ∃ n0, ∀ n ≥ n0, ∀ k, FlowNear ε (Channel.impacts.flow (((SolverState.iterate M dt)^[n] s).bodies k)) (u k)) ∧
      ∀ N, (∀ l ∈ s.joints, l.ia < N ∧ l.ib < N) → (∀ w, Agrees s w → effort N s.bodies u ≤ effort N s.bodies w) ∧
        ∃ ρ, 0 ≤ ρ ∧ ρ < 1 ∧ ∀ n, effort N ((SolverState.iterate M dt)^[n] s).bodies u ≤ ρ ^ n * effort N s.bodies u := by
  obtain ⟨u, ua, p1⟩ := least_change s hm (fun l h => (hj l h).1) hw
  set μ := fun k => (s.bodies k).mInv with hμ
  set ι := fun k => (s.bodies k).iInv with hι
  set L := (s.joints.map tie).map (dirs μ ι) with hL
  have sym := fun N => form_sym N μ ι
  have psd := fun N => form_nonneg (N := N) (μ := μ) (ι := ι) (fun k => (hm k).1) (fun k => (hm k).2)
  obtain ⟨N0, hN0⟩ := bound_joints s.joints
  obtain ⟨p, au⟩ : ∃ p, away .impacts s.bodies u = p := ⟨_, rfl⟩
  rw [au] at p1
  have pr : Reach μ ι p := reach_made p1
  have ur : Reach μ ι (away .impacts s.bodies u) := by rw [au]; exact pr
  have hl : ∀ N, (∀ l ∈ s.joints, l.ia < N ∧ l.ib < N) → ∀ l ∈ s.joints, l.ia < N ∧ l.ib < N ∧ l.ia ≠ l.ib ∧ Tied l.it (s.bodies l.ia) (s.bodies l.ib) ∧ MeetsAll u (tie l) :=
    fun N hN l h => ⟨(hN l h).1, (hN l h).2, (hj l h).1, (hj l h).2, (met_iff l u).1 (ua.met l h)⟩
  have xm : ∀ n, away .impacts ((SolverState.iterate M dt)^[n] s).bodies u ∈ Tie.Made (K := K) L.flatten := by
    intro n
    induction n with
    | zero => show away .impacts s.bodies u ∈ _; rw [au]; exact p1
    | succ n ih =>
      have := Submodule.add_mem _ ih (Tie.pass_made _ _ _ (iterate_pass hM dt hc (hl N0 hN0) ur n fun m _ => hf m).2)
      rwa [add_sub_cancel] at this
  have rate : ∀ N, (∀ l ∈ s.joints, l.ia < N ∧ l.ib < N) → ∃ ρ, 0 ≤ ρ ∧ ρ < 1 ∧ ∀ n, effort N ((SolverState.iterate M dt)^[n] s).bodies u ≤ ρ ^ n * effort N s.bodies u := by
    intro N hN
    obtain ⟨ρ, r0, r1, hρ⟩ := Tie.shrinks (B := form N μ ι) (sym N) (psd N) L
    refine ⟨ρ, r0, r1, fun n => ?_⟩
    induction n with
    | zero => simp
    | succ n ih =>
      obtain ⟨⟨-, -, sb, -, -⟩, pa⟩ := iterate_pass hM dt hc (hl N hN) ur n fun m _ => hf m
      obtain ⟨⟨-, -, sb', -, -⟩, -⟩ := iterate_pass hM dt hc (hl N hN) ur (n + 1) fun m _ => hf m
      have := hρ _ _ (xm n) pa
      rw [← effort_eq (fun k => ⟨(sb k).masses.2.1, (sb k).masses.2.2.2.1⟩), ← effort_eq (fun k => ⟨(sb' k).masses.2.1, (sb' k).masses.2.2.2.1⟩)] at this
      rw [pow_succ', mul_assoc]
      exact this.trans (mul_le_mul_of_nonneg_left ih r0)
  refine ⟨u, ua, fun ε hε => ?_, fun N hN => ⟨fun w' hw' => ?_, rate N hN⟩⟩
  · obtain ⟨ρ, r0, r1, hρ⟩ := rate N0 hN0
    set S : K := ∑ k ∈ Finset.range N0, (μ k + ι k) + 1 with hS
    have S1 : 0 < S := by
      have : 0 ≤ ∑ k ∈ Finset.range N0, (μ k + ι k) := Finset.sum_nonneg fun k _ => add_nonneg (hm k).1 (hm k).2
      linarith
    have e0 : 0 ≤ effort N0 s.bodies u := by rw [effort_eq (μ := μ) (ι := ι) fun k => ⟨rfl, rfl⟩]; exact psd N0 _
    obtain ⟨n0, hn0⟩ := exists_pow_lt_of_lt_one (show 0 < ε ^ 2 / S / (effort N0 s.bodies u + 1) by positivity) r1
    refine ⟨n0, fun n hn k => ?_⟩
    obtain ⟨⟨-, -, sb, -, re⟩, -⟩ := iterate_pass hM dt hc (hl N0 hN0) ur n fun m _ => hf m
    have fin : effort N0 ((SolverState.iterate M dt)^[n] s).bodies u ≤ ε ^ 2 / S := by
      have q1 := (pow_le_pow_of_le_one r0 r1.le hn).trans hn0.le
      have q2 := mul_le_mul_of_nonneg_right q1 e0
      have q3 : ε ^ 2 / S / (effort N0 s.bodies u + 1) * effort N0 s.bodies u ≤ ε ^ 2 / S := by
        rw [div_mul_eq_mul_div, div_le_iff₀ (by linarith)]
        exact mul_le_mul_of_nonneg_left (by linarith) (by positivity)
      exact (hρ n).trans (q2.trans q3)
    rw [effort_eq (fun k => ⟨(sb k).masses.2.1, (sb k).masses.2.2.2.1⟩)] at fin
    by_cases hk : k < N0
    · exact flow_small hm re hε fin hk
    · have z := made_far (N := N0) (fun t ht => by obtain ⟨l, h1, rfl⟩ := List.mem_map.1 ht; exact hN0 l h1) (xm n) (not_lt.1 hk)
      have z1 : Channel.impacts.flow (((SolverState.iterate M dt)^[n] s).bodies k) - u k = 0 := z
      rw [sub_eq_zero.1 z1]
      simp [FlowNear, hε.le]
  · rw [effort_eq (μ := μ) (ι := ι) fun k => ⟨rfl, rfl⟩, effort_eq (μ := μ) (ι := ι) fun k => ⟨rfl, rfl⟩]
    have wr' := agrees_reach hw'
    have e1 : away .impacts s.bodies w' = p + (u - w') := by rw [← au]; funext k; simp only [away, Pi.add_apply, Pi.sub_apply]; abel
    have rr : Reach μ ι (u - w') := by
      have := wr'.add pr (-1)
      rw [neg_one_smul, ← sub_eq_add_neg, e1, add_sub_cancel_left] at this
      exact this
    have h0 : form N μ ι p (u - w') = 0 := by
      refine Tie.made_zero (fun d hd => ?_) p1
      obtain ⟨ds, h1, h2⟩ := List.mem_flatten.1 hd
      obtain ⟨t, ht, rfl⟩ := List.mem_map.1 h1
      obtain ⟨l, hl1, rfl⟩ := List.mem_map.1 ht
      obtain ⟨r, hr, rfl⟩ := List.mem_map.1 h2
      show form N μ ι (pulls μ ι l.ia l.ib r.1) (u - w') = 0
      rw [form_pulls r.1 (hN l hl1).1 (hN l hl1).2 (hj l hl1).1 rr]
      have a1 := ((met_iff l u).1 (ua.met l hl1)) r hr
      have a2 := ((met_iff l w').1 (hw'.met l hl1)) r hr
      simp only [Pi.sub_apply, reads_sub]
      simp only [tie] at a1 a2
      rw [a1, a2, sub_self]
    rw [au, e1]
    have := psd N (u - w')
    simp only [map_add, LinearMap.add_apply]
    rw [sym N (u - w') p, h0]
    linarith

/-- No iteration takes the velocities further away from velocities with which the joints have what they ask for. -/
theorem C144_nearer {M : Mth K} (hM : M.Lawful) (dt : K) (s : SolverState K) (hc : s.arbs = []) (hm : ∀ k, 0 ≤ (s.bodies k).mInv ∧ 0 ≤ (s.bodies k).iInv)
    (hj : ∀ l ∈ s.joints, l.ia ≠ l.ib ∧ Tied l.it (s.bodies l.ia) (s.bodies l.ib))
    (hf : ∀ n, ∀ l ∈ ((SolverState.iterate M dt)^[n + 1] s).joints, Unstrained dt l.it) (w : Flow K) (hw : Agrees s w)
    (N : Nat) (hN : ∀ l ∈ s.joints, l.ia < N ∧ l.ib < N) (n : Nat) :
    effort N ((SolverState.iterate M dt)^[n + 1] s).bodies w ≤ effort N ((SolverState.iterate M dt)^[n] s).bodies w := by
  have hl : ∀ l ∈ s.joints, l.ia < N ∧ l.ib < N ∧ l.ia ≠ l.ib ∧ Tied l.it (s.bodies l.ia) (s.bodies l.ib) ∧ MeetsAll w (tie l) :=
    fun l h => ⟨(hN l h).1, (hN l h).2, (hj l h).1, (hj l h).2, (met_iff l w).1 (hw.met l h)⟩
  obtain ⟨⟨-, -, sb, -, -⟩, pa⟩ := iterate_pass hM dt hc hl (agrees_reach hw) n fun m _ => hf m
  obtain ⟨⟨-, -, sb', -, -⟩, -⟩ := iterate_pass hM dt hc hl (agrees_reach hw) (n + 1) fun m _ => hf m
  rw [effort_eq (fun k => ⟨(sb k).masses.2.1, (sb k).masses.2.2.2.1⟩), effort_eq (fun k => ⟨(sb' k).masses.2.1, (sb' k).masses.2.2.2.1⟩)]
  exact Tie.pass_falls (form_sym _ _ _) (form_nonneg (fun k => (hm k).1) (fun k => (hm k).2)) _ _ _ pa

/-- Preparing a pin, a pivot, a gear or a motor does what the theorem needs. -/
theorem C144_prepared {M : Mth K} (hM : M.Lawful) (inf dt : K) (jt : Joint K) (a b : Body K) (hm : Movable a b) (ht : Turnable a b)
    (hk : Preparable jt a b) : Tied (jt.preStep M inf a b dt).2.2 a b := by
  cases jt with
  | pin j =>
    have hg : Spec.gap a b j.anchorA j.anchorB ≠ V2.zero := hk
    have hgm : (Spec.gap a b j.anchorA j.anchorB).mag M ≠ 0 := fun e => hg (mag_eq_zero hM _ e)
    have hg' : b.p.add ((anchorOffset b j.anchorB).sub (a.p.add (anchorOffset a j.anchorA))) = Spec.gap a b j.anchorA j.anchorB := by
      refine V2.ext ?_ ?_ <;> simp only [Spec.gap, V2.add, V2.sub] <;> ring
    refine ⟨hm, ?_, rfl⟩
    simp only [PinJoint.preStep, hg', if_pos hgm]
    exact mag_scale_inv hM _ hg
  | pivot j => exact ⟨hm, rfl⟩
  | gear j => exact ⟨ht, hk.1, hk.2, rfl⟩
  | motor j => exact ⟨ht, rfl⟩
  | slide j => exact hk.elim
  | groove j => exact hk.elim
  | ratchet j => exact hk.elim
  | rotaryLimit j => exact hk.elim
  | spring j => exact hk.elim
  | rotarySpring j => exact hk.elim

/-! ## An example: two motors that are to stop two discs, the second of them through the first -/

noncomputable def exTrain (q : ℝ) : SolverState ℝ :=
  ⟨fun k => if k = 0 then { Body.blank with m := 1, mInv := 0, i := 1, iInv := 0 }
      else if k = 1 then { Body.blank with m := 1, mInv := 1, i := 1, iInv := 1, w := q }
      else if k = 2 then { Body.blank with m := 1, mInv := 1, i := 1, iInv := 1, w := q } else Body.blank,
    [], [⟨0, 1, .motor ⟨⟨3, 1, 1⟩, 0, 1, -(2 - 2 * q)⟩⟩, ⟨1, 2, .motor ⟨⟨3, 1, 1⟩, 0, 1/2, -(1 - q)⟩⟩]⟩

/-- Each iteration halves the angular velocities. -/
theorem exTrain_step (q : ℝ) (h0 : 0 ≤ q) (h1 : q ≤ 1) : (exTrain q).iterate realMth 1 = exTrain (q / 2) := by
  have c1 : clamp (-(2 - 2 * q) + -(q - 0 + 0) * 1) (-(3 * 1)) (3 * 1) = -(2 - 2 * (q / 2)) := by
    rw [clamp_eq _ _ _ (by norm_num), min_eq_left (by linarith), max_eq_right (by linarith)]; ring
  have c2 : clamp (-(1 - q) + -(q - (q + (-(2 - 2 * (q / 2)) - -(2 - 2 * q)) * 1) + 0) * (1 / 2)) (-(3 * 1)) (3 * 1) = -(1 - q / 2) := by
    rw [clamp_eq _ _ _ (by norm_num), min_eq_left (by linarith), max_eq_right (by linarith)]; ring
  simp only [SolverState.iterate, exTrain, linkLoop, Joint.applyImpulse, SimpleMotor.applyImpulse, spin, putPair, if_true, one_ne_zero, if_false,
    OfNat.ofNat_ne_zero, OfNat.ofNat_ne_one, OfNat.one_ne_ofNat, zero_ne_one, Body.blank]
  rw [c1, c2]
  congr 1
  funext k
  by_cases k0 : k = 0
  · subst k0; simp [putPair]
  · by_cases k1 : k = 1
    · subst k1; simp [putPair]; ring
    · by_cases k2 : k = 2
      · subst k2; simp [putPair]
      · simp [putPair, k0, k1, k2]

theorem exTrain_all (n : Nat) : (SolverState.iterate realMth 1)^[n] (exTrain 1) = exTrain (1 / 2 ^ n) := by
  induction n with
  | zero => simp
  | succ n ih =>
    rw [Function.iterate_succ_apply', ih, exTrain_step _ (by positivity) (by rw [div_le_one (by positivity)]; exact one_le_pow₀ (by norm_num))]
    congr 1
    rw [pow_succ]; field_simp

example : (∀ k, 0 ≤ ((exTrain 1).bodies k).mInv ∧ 0 ≤ ((exTrain 1).bodies k).iInv) ∧
    (∀ l ∈ (exTrain 1).joints, l.ia ≠ l.ib ∧ Tied l.it ((exTrain 1).bodies l.ia) ((exTrain 1).bodies l.ib)) ∧
    (∀ n, ∀ l ∈ ((SolverState.iterate realMth 1)^[n + 1] (exTrain 1)).joints, Unstrained 1 l.it) ∧ (∃ w, Agrees (exTrain 1) w) ∧
    ∀ n, (((SolverState.iterate realMth 1)^[n] (exTrain 1)).bodies 2).w = 1 / 2 ^ n := by
  refine ⟨fun k => ?_, ?_, fun n => ?_, ⟨fun _ => 0, fun k => ?_, ?_⟩, fun n => ?_⟩
  · simp only [exTrain]; split_ifs <;> simp [Body.blank]
  · simp [exTrain, Tied, Turnable]; norm_num
  · rw [exTrain_all]
    have p : (0 : ℝ) < 1 / 2 ^ (n + 1) := by positivity
    have p1 : (1 : ℝ) / 2 ^ (n + 1) ≤ 1 := by rw [div_le_one (by positivity)]; exact one_le_pow₀ (by norm_num)
    generalize (1 : ℝ) / 2 ^ (n + 1) = q at *
    intro l hl
    simp only [exTrain, List.mem_cons, List.not_mem_nil, or_false] at hl
    rcases hl with rfl | rfl <;> simp only [Unstrained] <;> rw [abs_lt] <;> constructor <;> linarith
  · simp only [exTrain]; split_ifs <;> simp [Body.blank, V2.zero]
  · simp [exTrain, misses]
  · rw [exTrain_all]; simp [exTrain]

/-- A pin and a gear to be prepared. -/
example : Movable ({ Body.blank with mInv := 1, iInv := 1 } : Body ℚ) { Body.blank with mInv := 1, iInv := 1, p := ⟨1, 0⟩ } ∧
    Turnable ({ Body.blank with mInv := 1, iInv := 1 } : Body ℚ) { Body.blank with mInv := 1, iInv := 1, p := ⟨1, 0⟩ } ∧
    Preparable (.pin ⟨⟨3, 1, 1⟩, ⟨0, 0⟩, ⟨0, 0⟩, 1, ⟨0, 0⟩, ⟨0, 0⟩, ⟨0, 0⟩, 0, 0, 0⟩) ({ Body.blank with mInv := 1, iInv := 1 } : Body ℚ) { Body.blank with mInv := 1, iInv := 1, p := ⟨1, 0⟩ } ∧
    Preparable (.gear (GearJoint.new ⟨3, 1, 1⟩ 0 2)) ({ Body.blank with mInv := 1, iInv := 1 } : Body ℚ) { Body.blank with mInv := 1, iInv := 1, p := ⟨1, 0⟩ } := by
  unfold Movable Turnable Preparable
  decide +kernel

end Cm
