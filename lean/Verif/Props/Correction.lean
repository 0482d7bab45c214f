import Verif.Props.Contact
/-! # C86: how overlap is corrected -/
set_option linter.unusedSectionVars false
set_option linter.unusedSimpArgs false
set_option linter.unusedVariables false

namespace Cm
open Spec
variable {K : Type} [Field K] [LinearOrder K] [IsStrictOrderedRing K]

namespace Spec
/-- How far the contact point of `a` lies past that of `b` along the normal, which points from `a` to `b`. -/
def overlap (a b : Body K) (r1 r2 n : V2 K) : K :=
  (a.p.x + r1.x - (b.p.x + r2.x)) * n.x + (a.p.y + r1.y - (b.p.y + r2.y)) * n.y

/-- The speed at which the correction velocities move the contact points apart. -/
def parting (a b : Body K) (r1 r2 n : V2 K) : K :=
  ((b.vBias.x - b.wBias * r2.y) - (a.vBias.x - a.wBias * r1.y)) * n.x +
    ((b.vBias.y + b.wBias * r2.x) - (a.vBias.y + a.wBias * r1.x)) * n.y

/-- Angular momentum of the correction velocities about the origin. -/
def biasAngMom (b : Body K) : K := b.m * (b.p.x * b.vBias.y - b.p.y * b.vBias.x) + b.i * b.wBias

/-- The contact points lie on a line along the normal. -/
def Facing (a b : Body K) (r1 r2 n : V2 K) : Prop :=
  (a.p.x + r1.x - (b.p.x + r2.x)) * n.y = (a.p.y + r1.y - (b.p.y + r2.y)) * n.x
end Spec

/-- **C86** The correction speed `PreStep` asks for is never negative, is zero while the overlap is within the slop, and beyond it removes in
one step the share `1 - bias^dt` of the excess, so that it never pushes past the slop. -/
theorem C86_prepared (M : Mth K) (hM : M.Lawful) (arb : Arbiter K) (a b : Body K) (dt slop cb : K) (c : Contact K) (hdt : 0 < dt)
    (hcb : 0 ≤ cb) (hcb' : cb ≤ 1) :
    let s := (arb.preStepContact a b dt slop (1 - M.pow cb dt) c).bias
    let o := overlap a b c.r1 c.r2 arb.normal
    0 ≤ s ∧ (o ≤ slop → s = 0) ∧ (slop ≤ o → s * dt = (1 - M.pow cb dt) * (o - slop) ∧ slop ≤ o - s * dt) := by
  intro s o
  have hs : s = -(1 - M.pow cb dt) * min 0 (-o + slop) / dt := by
    show -(1 - M.pow cb dt) * min 0 (((c.r2.sub c.r1).add (b.p.sub a.p)).dot arb.normal + slop) / dt = _
    congr 3
    simp only [o, overlap, V2.dot, V2.sub, V2.add]; ring
  have h0 := hM.pow_nonneg cb dt hcb
  have h1 := hM.pow_le cb dt hcb hcb' hdt.le
  refine ⟨?_, ?_, ?_⟩
  · rw [hs]
    exact div_nonneg (mul_nonneg_of_nonpos_of_nonpos (by linarith) (min_le_left _ _)) hdt.le
  · intro h
    rw [hs, min_eq_left (by linarith)]; simp
  · intro h
    have e : s * dt = (1 - M.pow cb dt) * (o - slop) := by
      rw [hs, min_eq_right (by linarith), div_mul_cancel₀ _ hdt.ne']; ring
    refine ⟨e, ?_⟩
    rw [e]
    nlinarith

theorem parting_after (a b : Body K) (r1 r2 n : V2 K) (j : K) :
    parting (applyBiasImpulses a b r1 r2 (n.scale j)).1 (applyBiasImpulses a b r1 r2 (n.scale j)).2 r1 r2 n
      = parting a b r1 r2 n + j * (a.mInv * (n.x ^ 2 + n.y ^ 2) + a.iInv * r1.cross n * r1.cross n +
          (b.mInv * (n.x ^ 2 + n.y ^ 2) + b.iInv * r2.cross n * r2.cross n)) := by
  simp only [parting, applyBiasImpulses, V2.scale, V2.cross]
  ring

theorem contactStep_bias (n sv : V2 K) (u : K) (a b : Body K) (c : Contact K) :
    let s := Arbiter.contactStep n sv u a b c
    let t := applyBiasImpulses a b c.r1 c.r2 (n.scale (s.2.2.jBias - c.jBias))
    s.1.vBias = t.1.vBias ∧ s.1.wBias = t.1.wBias ∧ s.2.1.vBias = t.2.vBias ∧ s.2.1.wBias = t.2.wBias ∧
    s.2.2.jBias = max (c.jBias + (c.bias - parting a b c.r1 c.r2 n) * c.nMass) 0 := by
  refine ⟨rfl, rfl, rfl, rfl, ?_⟩
  simp only [Arbiter.contactStep]
  congr 3
  simp only [parting, V2.add, V2.sub, V2.scale, V2.perp, V2.dot]
  ring

/-- **C86** One iteration makes the contact points part at exactly the speed asked for, unless no push is needed: then none is applied and they
part at least that fast. -/
theorem C86_iteration (n sv : V2 K) (u : K) (a b : Body K) (c : Contact K) (hn : n.x ^ 2 + n.y ^ 2 = 1)
    (hk : 0 < kScalar a b c.r1 c.r2 n) (hnm : c.nMass = 1 / kScalar a b c.r1 c.r2 n) :
    let s := Arbiter.contactStep n sv u a b c
    0 ≤ s.2.2.jBias ∧ (0 < s.2.2.jBias → parting s.1 s.2.1 c.r1 c.r2 n = c.bias) ∧
      (s.2.2.jBias = 0 → c.bias ≤ parting s.1 s.2.1 c.r1 c.r2 n) := by
  intro s
  obtain ⟨e1, e2, e3, e4, e5⟩ := contactStep_bias n sv u a b c
  have hp : parting s.1 s.2.1 c.r1 c.r2 n = parting a b c.r1 c.r2 n + (s.2.2.jBias - c.jBias) * kScalar a b c.r1 c.r2 n := by
    have := parting_after a b c.r1 c.r2 n (s.2.2.jBias - c.jBias)
    rw [hn, mul_one, mul_one] at this
    rw [show kScalar a b c.r1 c.r2 n = a.mInv + a.iInv * c.r1.cross n * c.r1.cross n + (b.mInv + b.iInv * c.r2.cross n * c.r2.cross n) from rfl,
      ← this]
    simp only [parting, s, e1, e2, e3, e4]
  have hj : s.2.2.jBias = max (c.jBias + (c.bias - parting a b c.r1 c.r2 n) * c.nMass) 0 := e5
  have hkk : c.nMass * kScalar a b c.r1 c.r2 n = 1 := by rw [hnm]; field_simp
  generalize kScalar a b c.r1 c.r2 n = k at *
  generalize parting a b c.r1 c.r2 n = q at *
  refine ⟨by rw [hj]; exact le_max_right _ _, ?_, ?_⟩
  · intro h
    have e : s.2.2.jBias = c.jBias + (c.bias - q) * c.nMass := by
      rcases max_choice (c.jBias + (c.bias - q) * c.nMass) 0 with h' | h'
      · rw [hj, h']
      · rw [hj, h'] at h; exact absurd h (lt_irrefl _)
    rw [hp, e]
    linear_combination (c.bias - q) * hkk
  · intro h
    have hle : c.jBias + (c.bias - q) * c.nMass ≤ 0 := by
      have := le_max_left (c.jBias + (c.bias - q) * c.nMass) 0
      rw [← hj, h] at this; exact this
    have h2 := mul_le_mul_of_nonneg_right hle hk.le
    have h3 : (c.jBias + (c.bias - q) * c.nMass) * k = c.jBias * k + (c.bias - q) := by linear_combination (c.bias - q) * hkk
    rw [hp, h]
    linarith [h3 ▸ h2]

theorem Spec.Facing.same {a b a' b' : Body K} {r1 r2 n : V2 K} (h : Facing a b r1 r2 n) (ha : SameBut a a') (hb : SameBut b b') :
    Facing a' b' r1 r2 n := by
  unfold Facing at *
  rw [ha.masses.2.2.2.2.1, hb.masses.2.2.2.2.1]
  exact h

theorem contactStep_biasAngMom (n sv : V2 K) (u : K) (a b : Body K) (c : Contact K)
    (ha : FiniteMass a) (hb : FiniteMass b) (ha' : FiniteMoment a) (hb' : FiniteMoment b) (hc : Facing a b c.r1 c.r2 n) :
    biasAngMom (Arbiter.contactStep n sv u a b c).1 + biasAngMom (Arbiter.contactStep n sv u a b c).2.1
      = biasAngMom a + biasAngMom b := by
  have ex := contactStep_exchange n sv u a b c
  obtain ⟨e1, e2, e3, e4, e5⟩ := contactStep_bias n sv u a b c
  unfold biasAngMom
  rw [ex.sameA.masses.1, ex.sameB.masses.1, ex.sameA.masses.2.2.1, ex.sameB.masses.2.2.1, ex.sameA.masses.2.2.2.2.1,
    ex.sameB.masses.2.2.2.2.1, e1, e2, e3, e4]
  generalize (Arbiter.contactStep n sv u a b c).2.2.jBias - c.jBias = j
  simp only [FiniteMass, FiniteMoment, Facing] at *
  simp only [applyBiasImpulses, V2.scale]
  linear_combination (-(a.p.x * n.y * j) + a.p.y * n.x * j) * ha + (b.p.x * n.y * j - b.p.y * n.x * j) * hb
    + (-(c.r1.x * n.y * j) + c.r1.y * n.x * j) * ha' + (c.r2.x * n.y * j - c.r2.y * n.x * j) * hb' - j * hc

/-- **C86** The correction impulses of any number of contacts, whose two points lie on a line along the normal, conserve the angular momentum of
the correction velocities. (That of their linear momentum is `C34_linear`.) -/
theorem C86_spin (n sv : V2 K) (u : K) (cs : List (Contact K)) : ∀ a b : Body K,
    FiniteMass a → FiniteMass b → FiniteMoment a → FiniteMoment b → (∀ c ∈ cs, Facing a b c.r1 c.r2 n) →
    biasAngMom (Arbiter.impulseLoop n sv u cs a b).1 + biasAngMom (Arbiter.impulseLoop n sv u cs a b).2.1
      = biasAngMom a + biasAngMom b := by
  induction cs with
  | nil => intros; rfl
  | cons c cs ih =>
    intro a b ha hb ha' hb' hc
    have ex := contactStep_exchange n sv u a b c
    have := ih _ _ (ex.sameA.finiteMass.1 ha) (ex.sameB.finiteMass.1 hb) (ex.sameA.finiteMoment.1 ha')
      (ex.sameB.finiteMoment.1 hb') (fun d hd => (hc d (by simp [hd])).same ex.sameA ex.sameB)
    simp only [Arbiter.impulseLoop]
    rw [this]
    exact contactStep_biasAngMom n sv u a b c ha hb ha' hb' (hc c (by simp))

/-- The turns of one contact in `n` iterations. -/
def Spec.turns (nrm sv : V2 K) (u : K) : Nat → Body K × Body K × Contact K → Body K × Body K × Contact K
  | 0, s => s
  | n + 1, s => turns nrm sv u n (Arbiter.contactStep nrm sv u s.1 s.2.1 s.2.2)

/-- Once the contact points part at the speed asked for, further iterations leave the correction velocities alone. -/
theorem C86_converged (nrm sv : V2 K) (u : K) (n : Nat) : ∀ s : Body K × Body K × Contact K,
    parting s.1 s.2.1 s.2.2.r1 s.2.2.r2 nrm = s.2.2.bias → 0 ≤ s.2.2.jBias →
    (turns nrm sv u n s).1.vBias = s.1.vBias ∧ (turns nrm sv u n s).1.wBias = s.1.wBias ∧
    (turns nrm sv u n s).2.1.vBias = s.2.1.vBias ∧ (turns nrm sv u n s).2.1.wBias = s.2.1.wBias := by
  induction n with
  | zero => intro s _ _; exact ⟨rfl, rfl, rfl, rfl⟩
  | succ n ih =>
    intro s hp hj
    obtain ⟨e1, e2, e3, e4, e5⟩ := contactStep_bias nrm sv u s.1 s.2.1 s.2.2
    rw [hp, sub_self, zero_mul, add_zero, max_eq_left hj] at e5
    have z : nrm.scale ((Arbiter.contactStep nrm sv u s.1 s.2.1 s.2.2).2.2.jBias - s.2.2.jBias) = ⟨0, 0⟩ := by
      rw [e5]; simp [V2.scale]
    rw [z] at e1 e2 e3 e4
    simp only [applyBiasImpulses, zero_mul, mul_zero, add_zero, neg_zero, sub_self] at e1 e2 e3 e4
    have f1 : (Arbiter.contactStep nrm sv u s.1 s.2.1 s.2.2).2.2.bias = s.2.2.bias := rfl
    have f2 : (Arbiter.contactStep nrm sv u s.1 s.2.1 s.2.2).2.2.r1 = s.2.2.r1 := rfl
    have f3 : (Arbiter.contactStep nrm sv u s.1 s.2.1 s.2.2).2.2.r2 = s.2.2.r2 := rfl
    have := ih (Arbiter.contactStep nrm sv u s.1 s.2.1 s.2.2)
      (by rw [f1, f2, f3]; simp only [parting, e1, e2, e3, e4]; exact hp) (by rw [e5]; exact hj)
    rw [e1, e2, e3, e4] at this
    exact this

/-- **C86** Two bodies without correction velocities meet in one contact along the line of their centres: whatever the number of iterations,
the correction velocities carry away exactly the share `1 - bias^dt` of the overlap beyond the slop, and turn neither body. -/
theorem C86_head_on (M : Mth K) (hM : M.Lawful) (arb : Arbiter K) (a b : Body K) (dt slop cb : K) (c : Contact K) (hdt : 0 < dt)
    (hcb : 0 ≤ cb) (hcb' : cb ≤ 1) (hn : arb.normal.x ^ 2 + arb.normal.y ^ 2 = 1) (hm : 0 < a.mInv + b.mInv)
    (h1 : c.r1.cross arb.normal = 0) (h2 : c.r2.cross arb.normal = 0)
    (ha : a.vBias = V2.zero ∧ a.wBias = 0) (hb : b.vBias = V2.zero ∧ b.wBias = 0)
    (ho : slop ≤ overlap a b c.r1 c.r2 arb.normal) (n : Nat) :
    let s := turns arb.normal arb.surfaceVr arb.u (n + 1) (a, b, arb.preStepContact a b dt slop (1 - M.pow cb dt) c)
    let a' : Body K := { a with p := a.p.add (s.1.vBias.scale dt) }
    let b' : Body K := { b with p := b.p.add (s.2.1.vBias.scale dt) }
    s.1.wBias = 0 ∧ s.2.1.wBias = 0 ∧
      overlap a' b' c.r1 c.r2 arb.normal - slop = M.pow cb dt * (overlap a b c.r1 c.r2 arb.normal - slop) := by
  intro s a' b'
  set p := arb.preStepContact a b dt slop (1 - M.pow cb dt) c with hp
  obtain ⟨g0, _, g1⟩ := C86_prepared M hM arb a b dt slop cb c hdt hcb hcb'
  obtain ⟨g1, -⟩ := g1 ho
  rw [← hp] at g0 g1
  have hk : kScalar a b c.r1 c.r2 arb.normal = a.mInv + b.mInv := by simp [kScalar, kScalarBody, h1, h2]
  have hk0 : 0 < kScalar a b p.r1 p.r2 arb.normal := by
    show 0 < kScalar a b c.r1 c.r2 arb.normal
    rw [hk]; exact hm
  set t := Arbiter.contactStep arb.normal arb.surfaceVr arb.u a b p with ht
  obtain ⟨i0, i1, i2⟩ := C86_iteration arb.normal arb.surfaceVr arb.u a b p hn hk0 rfl
  rw [← ht] at i0 i1 i2
  obtain ⟨e1, e2, e3, e4, e5⟩ := contactStep_bias arb.normal arb.surfaceVr arb.u a b p
  rw [← ht] at e1 e2 e3 e4 e5
  have hz : parting a b p.r1 p.r2 arb.normal = 0 := by simp [parting, ha.1, ha.2, hb.1, hb.2, V2.zero]
  have hj0 : p.jBias = 0 := rfl
  have hpart : parting t.1 t.2.1 p.r1 p.r2 arb.normal = p.bias := by
    rcases i0.eq_or_lt with h | h
    · have q := h.symm
      rw [q] at e5
      rw [hz, hj0, sub_zero, zero_add] at e5
      have hnm : 0 < p.nMass := one_div_pos.2 hk0
      have hb0 : p.bias = 0 := by
        by_contra hne
        have hpos : 0 < p.bias := lt_of_le_of_ne g0 (Ne.symm hne)
        have := le_max_left (p.bias * p.nMass) 0
        rw [← e5] at this
        exact absurd this (not_le.2 (mul_pos hpos hnm))
      have zz : arb.normal.scale (t.2.2.jBias - p.jBias) = ⟨0, 0⟩ := by rw [q, hj0]; simp [V2.scale]
      rw [zz] at e1 e2 e3 e4
      simp only [applyBiasImpulses, zero_mul, mul_zero, add_zero, neg_zero, sub_self] at e1 e2 e3 e4
      rw [hb0, ← hz]
      simp only [parting, e1, e2, e3, e4]
    · exact i1 h
  have h1' : p.r1.x * arb.normal.y - p.r1.y * arb.normal.x = 0 := h1
  have h2' : p.r2.x * arb.normal.y - p.r2.y * arb.normal.x = 0 := h2
  have wa : t.1.wBias = 0 := by
    rw [e2]
    simp only [applyBiasImpulses, V2.scale, ha.2]
    linear_combination (-(a.iInv * (t.2.2.jBias - p.jBias))) * h1'
  have wb : t.2.1.wBias = 0 := by
    rw [e4]
    simp only [applyBiasImpulses, V2.scale, hb.2]
    linear_combination (b.iInv * (t.2.2.jBias - p.jBias)) * h2'
  have hs : s = turns arb.normal arb.surfaceVr arb.u n t := rfl
  obtain ⟨k1, k2, k3, k4⟩ := C86_converged arb.normal arb.surfaceVr arb.u n t (by exact hpart) i0
  rw [← hs] at k1 k2 k3 k4
  refine ⟨by rw [k2, wa], by rw [k4, wb], ?_⟩
  have hfin : parting t.1 t.2.1 p.r1 p.r2 arb.normal * dt = (1 - M.pow cb dt) * (overlap a b c.r1 c.r2 arb.normal - slop) := by
    rw [hpart]; exact g1
  simp only [parting, wa, wb, zero_mul, sub_zero, add_zero] at hfin
  simp only [a', b', overlap, V2.add, V2.scale, k1, k3] at hfin ⊢
  linear_combination (-1 : K) * hfin

/-! ## Examples -/

/-- A ball half way into a block: the overlap is corrected by a tenth of its excess over the slop. -/
def exDeepArb : Arbiter ℚ :=
  { e := 0, u := 1/2, surfaceVr := ⟨0, 0⟩, normal := ⟨1, 0⟩, contacts := [{ exContact with r1 := ⟨2, 0⟩, r2 := ⟨-1, 0⟩ }], state := .normal,
    swapped := false }
def exDeepA : Body ℚ := { exBall with p := ⟨0, 0⟩ }

example : overlap exDeepA exBall ⟨2, 0⟩ ⟨-1, 0⟩ exDeepArb.normal = 1 ∧ Facing exDeepA exBall ⟨2, 0⟩ ⟨-1, 0⟩ exDeepArb.normal ∧
    (⟨2, 0⟩ : V2 ℚ).cross exDeepArb.normal = 0 ∧ (⟨-1, 0⟩ : V2 ℚ).cross exDeepArb.normal = 0 ∧ 0 < exDeepA.mInv + exBall.mInv ∧
    (exDeepA.vBias = V2.zero ∧ exDeepA.wBias = 0) ∧ FiniteMass exDeepA ∧ FiniteMoment exDeepA ∧
    (Arbiter.contactStep exDeepArb.normal ⟨0, 0⟩ 1 exDeepA exBall
      (exDeepArb.preStepContact exDeepA exBall 1 (1/10) (1/10) { exContact with r1 := ⟨2, 0⟩, r2 := ⟨-1, 0⟩ })).2.1.vBias = ⟨9/200, 0⟩ := by
  simp only [overlap, Facing, FiniteMass, FiniteMoment]
  decide +kernel

end Cm
