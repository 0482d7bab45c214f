import Verif.Props.Hinge
import Mathlib.Analysis.SpecificLimits.Normed
/-! # C135: rotary springs swing and come to rest, or run away, exactly as their numbers say -/
set_option linter.unusedSectionVars false
set_option linter.unusedSimpArgs false
set_option linter.unusedVariables false

namespace Cm
open Spec
variable {K : Type} [Field K] [LinearOrder K] [IsStrictOrderedRing K]

namespace Spec
/-- By how much a rotary spring is wound up. -/
def twist (rest : K) (ia ib : Nat) (w : World K) : K := (w.bodies ia).angle - (w.bodies ib).angle - rest

/-- How fast it is being wound up. -/
def twisting (ia ib : Nat) (w : World K) : K := (w.bodies ia).w - (w.bodies ib).w

/-- The bodies are joined by a rotary spring with the given angle of rest, stiffness and damping, and `I` is the sum of their inverse moments. -/
structure Sprung (ia ib : Nat) (rest k c I : K) (w : World K) : Prop where
  joint : ∃ s, JoinedBy w ia ib (.rotarySpring s) ∧ s.torqueFn = (fun x => (x - rest) * k) ∧ s.damping = c
  calm : (w.bodies ia).wBias = 0 ∧ (w.bodies ib).wBias = 0
  moment : (w.bodies ia).iInv + (w.bodies ib).iInv = I

/-- The body `k` turns freely in the step, or it is fixed. -/
def TurnsFreely (inf : K) (t : Tick K) (w : World K) (k : Nat) : Prop :=
  (k ∈ t.dyn ∧ (w.bodies k).type inf ≠ .kinematic ∨ (w.bodies k).iInv = 0 ∧ (w.bodies k).w = 0) ∧ (w.bodies k).torque = 0

/-- The step from `w` to `w'` has the length `dt`, and nothing but the spring turns the bodies. -/
structure Winds (sc : Scene K) (dt : K) (ia ib : Nat) (w : World K) (t : Tick K) (w' : World K) : Prop where
  length : t.dt = dt
  borne : TurnsFreely sc.par.inf t w ia ∧ TurnsFreely sc.par.inf t w ib
  free : Unaffected sc ia ib w w'
end Spec

/-! ## The solver -/

/-- Nothing but spins, speeds and forces differ. -/
def Poise (A a : Body K) : Prop := a.angle = A.angle ∧ a.mInv = A.mInv ∧ a.iInv = A.iInv ∧ a.wBias = A.wBias

theorem rot_iter (M : Mth K) (dt : K) {ia ib : K} (hI : ia + ib ≠ 0) : ∀ (n : Nat) (a b : Body K) (s : DampedRotarySpring K), a.iInv = ia → b.iInv = ib → s.iSum = 1 / (ia + ib) → s.targetWrn = a.w - b.w →
    let r := (fun x : Body K × Body K × Joint K => x.2.2.applyImpulse M x.1 x.2.1 dt)^[n] (a, b, .rotarySpring s)
    Poise a r.1 ∧ Poise b r.2.1 ∧ r.1.w - r.2.1.w = a.w - b.w ∧ ∃ s', r.2.2 = .rotarySpring s' ∧ s'.torqueFn = s.torqueFn ∧ s'.damping = s.damping := by
  intro n
  induction n with
  | zero => intro a b s _ _ _ _; exact ⟨⟨rfl, rfl, rfl, rfl⟩, ⟨rfl, rfl, rfl, rfl⟩, rfl, s, rfl, rfl, rfl⟩
  | succ n ih =>
    intro a b s h1 h2 h3 h4
    have h5 : (s.targetWrn - (a.w - b.w)) * s.wCoef = 0 := by rw [h4, sub_self, zero_mul]
    obtain ⟨p, q, e, s', z1, z2, z3⟩ := ih { a with w := a.w + (s.targetWrn - (a.w - b.w)) * s.wCoef * s.iSum * a.iInv } { b with w := b.w - (s.targetWrn - (a.w - b.w)) * s.wCoef * s.iSum * b.iInv }
      { s with targetWrn := (a.w - b.w) + (s.targetWrn - (a.w - b.w)) * s.wCoef, jAcc := s.jAcc + (s.targetWrn - (a.w - b.w)) * s.wCoef * s.iSum } h1 h2 h3 (by dsimp only; rw [h5]; ring)
    rw [Function.iterate_succ_apply]
    refine ⟨p, q, ?_, s', z1, z2, z3⟩
    refine Eq.trans e ?_
    dsimp only
    rw [h5]; ring

theorem rot_iters (M : Mth K) (dt : K) {ia ib : K} (hI : ia + ib ≠ 0) {n : Nat} (hn : n ≠ 0) (a b : Body K) (s : DampedRotarySpring K) (h1 : a.iInv = ia) (h2 : b.iInv = ib) (h3 : s.iSum = 1 / (ia + ib)) (h4 : s.targetWrn = 0) :
    let r := (fun x : Body K × Body K × Joint K => x.2.2.applyImpulse M x.1 x.2.1 dt)^[n] (a, b, .rotarySpring s)
    Poise a r.1 ∧ Poise b r.2.1 ∧ r.1.w - r.2.1.w = (1 - s.wCoef) * (a.w - b.w) ∧ ∃ s', r.2.2 = .rotarySpring s' ∧ s'.torqueFn = s.torqueFn ∧ s'.damping = s.damping := by
  obtain ⟨n, rfl⟩ := Nat.exists_eq_succ_of_ne_zero hn
  have h6 : ∀ x : K, x * (1 / (ia + ib)) * ia + x * (1 / (ia + ib)) * ib = x := by intro x; field_simp
  obtain ⟨p, q, e, s', z1, z2, z3⟩ := rot_iter M dt hI n { a with w := a.w + (s.targetWrn - (a.w - b.w)) * s.wCoef * s.iSum * a.iInv } { b with w := b.w - (s.targetWrn - (a.w - b.w)) * s.wCoef * s.iSum * b.iInv }
    { s with targetWrn := (a.w - b.w) + (s.targetWrn - (a.w - b.w)) * s.wCoef, jAcc := s.jAcc + (s.targetWrn - (a.w - b.w)) * s.wCoef * s.iSum } h1 h2 h3 (by
      dsimp only
      rw [h1, h2, h3]
      linear_combination -(h6 ((s.targetWrn - (a.w - b.w)) * s.wCoef)))
  rw [Function.iterate_succ_apply]
  refine ⟨p, q, ?_, s', z1, z2, z3⟩
  refine Eq.trans e ?_
  dsimp only
  rw [h1, h2, h3]
  linear_combination (h6 ((s.targetWrn - (a.w - b.w)) * s.wCoef)) + s.wCoef * h4

/-- What becomes of a body that a spring turns by the impulse `j` before its speed is updated. -/
theorem wound_body {M : Mth K} {par : Params K} {t : Tick K} {w : World K} {k : Nat} (h : TurnsFreely par.inf t w k) (hb : (w.bodies k).wBias = 0) (x : Body K) (j : K)
    (hx : x = { placed M t.dt t.dyn k (w.bodies k) with w := (placed M t.dt t.dyn k (w.bodies k)).w + j * (placed M t.dt t.dyn k (w.bodies k)).iInv }) :
    let y := if k ∈ t.dyn then x.updateVelocity par.inf par.gravity (M.pow par.damping t.dt) t.dt else x
    y.w = M.pow par.damping t.dt * ((w.bodies k).w + j * (w.bodies k).iInv) ∧ y.angle = (w.bodies k).angle + (w.bodies k).w * t.dt ∧ y.mInv = (w.bodies k).mInv ∧ y.iInv = (w.bodies k).iInv ∧ y.wBias = 0 := by
  obtain ⟨h1, h2⟩ := h
  by_cases hk : k ∈ t.dyn
  · have e : placed M t.dt t.dyn k (w.bodies k) = (w.bodies k).updatePosition M t.dt := by unfold placed; rw [if_pos hk]
    rw [e] at hx
    rw [if_pos hk]
    unfold Body.updateVelocity
    have ty : x.type par.inf = (w.bodies k).type par.inf := by rw [hx]; rfl
    have xw : x.w = (w.bodies k).w + j * (w.bodies k).iInv := by rw [hx]; rfl
    have xt : x.torque = 0 := by rw [hx]; exact h2
    have xi : x.iInv = (w.bodies k).iInv := by rw [hx]; rfl
    have xm : x.mInv = (w.bodies k).mInv := by rw [hx]; rfl
    have xb : x.wBias = 0 := by rw [hx]; rfl
    have xa : x.angle = (w.bodies k).angle + (w.bodies k).w * t.dt := by
      rw [hx]
      show (w.bodies k).angle + ((w.bodies k).w + (w.bodies k).wBias) * t.dt = _
      rw [hb, add_zero]
    rw [ty]
    by_cases hty : (w.bodies k).type par.inf = .kinematic
    · rw [if_pos hty]
      obtain ⟨i0, w0⟩ := h1.resolve_left (fun hh => hh.2 hty)
      refine ⟨?_, xa, xm, xi, xb⟩
      rw [xw, i0, w0]; ring
    · rw [if_neg hty]
      refine ⟨?_, xa, xm, xi, xb⟩
      show x.w * _ + x.torque * x.iInv * t.dt = _
      rw [xt, xw]; ring
  · have e : placed M t.dt t.dyn k (w.bodies k) = w.bodies k := by unfold placed; rw [if_neg hk]
    rw [e] at hx
    rw [if_neg hk]
    obtain ⟨i0, w0⟩ := h1.resolve_left (fun hh => hk hh.1)
    subst hx
    refine ⟨?_, ?_, rfl, rfl, hb⟩
    · show (w.bodies k).w + j * (w.bodies k).iInv = _
      rw [i0, w0]; ring
    · show (w.bodies k).angle = _
      rw [w0]; ring

namespace Spec
/-- The part of its speed that the spring's damping, and that of the space, leaves in a step. -/
def remains (M : Mth K) (par : Params K) (c I dt : K) : K := M.exp (-c * dt * I) * M.pow par.damping dt
end Spec

/-- **C135.** One step of two bodies joined by a rotary spring: the spring is wound on with its speed, and then the speed is changed by the spring's pull and damped. The number of iterations does not matter. -/
theorem C135_step {M : Mth K} {sc : Scene K} (hn : sc.par.iterations ≠ 0) {dt : K} (h0 : 0 < dt) {ia ib : Nat} {rest k c I : K} (hI : 0 < I) {w : World K} {t : Tick K} (hw : Sprung ia ib rest k c I w)
    (h : Winds sc dt ia ib w t (w.step M sc t)) :
    let w' := w.step M sc t
    Sprung ia ib rest k c I w' ∧ twist rest ia ib w' = twist rest ia ib w + dt * twisting ia ib w ∧
      twisting ia ib w' = remains M sc.par c I dt * (twisting ia ib w - k * I * dt * twist rest ia ib w') := by
  intro w'
  obtain rfl := h.length
  obtain ⟨⟨s, j1, c1, c2⟩, ⟨ba, bb⟩, hm⟩ := hw
  have hmov : ¬ (Immovable (w.bodies ia) ∧ Immovable (w.bodies ib)) := by
    rintro ⟨i1, i2⟩
    rw [i1.2, i2.2, add_zero] at hm
    exact hI.ne hm
  obtain ⟨ea, eb, ej⟩ := only_joint h0.ne' j1 h.free hmov
  generalize hA : placed M t.dt t.dyn ia (w.bodies ia) = A
  generalize hB : placed M t.dt t.dyn ib (w.bodies ib) = B
  have iA : A.iInv = (w.bodies ia).iInv := by rw [← hA]; unfold placed; split <;> rfl
  have iB : B.iInv = (w.bodies ib).iInv := by rw [← hB]; unfold placed; split <;> rfl
  have aA : A.angle = (w.bodies ia).angle + (w.bodies ia).w * t.dt := by
    rw [← hA]
    exact (placed_angle M t.dt (by rcases h.borne.1.1 with hh | hh; exacts [.inl hh.1, .inr hh]) ba).1
  have aB : B.angle = (w.bodies ib).angle + (w.bodies ib).w * t.dt := by
    rw [← hB]
    exact (placed_angle M t.dt (by rcases h.borne.2.1 with hh | hh; exacts [.inl hh.1, .inr hh]) bb).1
  generalize hJ : s.torqueFn (A.angle - B.angle) * t.dt = J
  have hya := wound_body (M := M) (par := sc.par) h.borne.1 ba { A with w := A.w - J * A.iInv } (-J) (by rw [hA]; congr 1; ring)
  have hyb := wound_body (M := M) (par := sc.par) h.borne.2 bb { B with w := B.w + J * B.iInv } J (by rw [hB])
  have hr : jointSolve M sc.par w.prevDT t.dt t.dyn ia ib (w.bodies ia) (w.bodies ib) (.rotarySpring s) = (fun x : Body K × Body K × Joint K => x.2.2.applyImpulse M x.1 x.2.1 t.dt)^[sc.par.iterations]
      (if ia ∈ t.dyn then ({ A with w := A.w - J * A.iInv } : Body K).updateVelocity sc.par.inf sc.par.gravity (M.pow sc.par.damping t.dt) t.dt else { A with w := A.w - J * A.iInv },
       if ib ∈ t.dyn then ({ B with w := B.w + J * B.iInv } : Body K).updateVelocity sc.par.inf sc.par.gravity (M.pow sc.par.damping t.dt) t.dt else { B with w := B.w + J * B.iInv },
       .rotarySpring { s with iSum := 1 / (A.iInv + B.iInv), wCoef := 1 - M.exp (-s.damping * t.dt * (A.iInv + B.iInv)), targetWrn := 0, jAcc := J }) := by
    rw [← hJ, ← hA, ← hB]; rfl
  generalize (if ia ∈ t.dyn then ({ A with w := A.w - J * A.iInv } : Body K).updateVelocity sc.par.inf sc.par.gravity (M.pow sc.par.damping t.dt) t.dt else { A with w := A.w - J * A.iInv }) = ya at *
  generalize (if ib ∈ t.dyn then ({ B with w := B.w + J * B.iInv } : Body K).updateVelocity sc.par.inf sc.par.gravity (M.pow sc.par.damping t.dt) t.dt else { B with w := B.w + J * B.iInv }) = yb at *
  obtain ⟨ya1, ya2, ya3, ya4, ya5⟩ := hya
  obtain ⟨yb1, yb2, yb3, yb4, yb5⟩ := hyb
  have hI' : A.iInv + B.iInv = I := by rw [iA, iB]; exact hm
  obtain ⟨pa, pb, e, s', z1, z2, z3⟩ := rot_iters M t.dt (ia := A.iInv) (ib := B.iInv) (by rw [hI']; exact hI.ne') hn ya yb
    { s with iSum := 1 / (A.iInv + B.iInv), wCoef := 1 - M.exp (-s.damping * t.dt * (A.iInv + B.iInv)), targetWrn := 0, jAcc := J } (by rw [ya4, iA]) (by rw [yb4, iB]) rfl rfl
  rw [← hr] at pa pb e z1
  rw [z1] at ej
  rw [← ea] at pa e
  rw [← eb] at pb e
  have ta : (w'.bodies ia).angle = (w.bodies ia).angle + (w.bodies ia).w * t.dt := pa.1.trans ya2
  have tb : (w'.bodies ib).angle = (w.bodies ib).angle + (w.bodies ib).w * t.dt := pb.1.trans yb2
  have tw : twist rest ia ib w' = twist rest ia ib w + t.dt * twisting ia ib w := by
    unfold twist twisting
    rw [ta, tb]; ring
  refine ⟨⟨⟨s', ej, z2.trans c1, z3.trans c2⟩, ⟨pa.2.2.2.trans ya5, pb.2.2.2.trans yb5⟩, ?_⟩, tw, ?_⟩
  · rw [pa.2.2.1, pb.2.2.1, ya4, yb4]; exact hm
  · have hJ' : J = twist rest ia ib w' * k * t.dt := by
      rw [← hJ, c1]
      show (A.angle - B.angle - rest) * k * t.dt = _
      unfold twist
      rw [ta, tb, aA, aB]
    show (w'.bodies ia).w - (w'.bodies ib).w = _
    rw [e]
    dsimp only
    rw [ya1, yb1, hJ', hI', c2]
    unfold remains twisting
    rw [← hm]
    ring

/-! ## Many steps -/

namespace Spec
/-- A measure of the swing `(x, v)` of a spring, in which each step leaves the same part. `E` is the part of the speed left, `a` the stiffness over the moment. -/
def swing (E a dt x v : K) : K := v ^ 2 + (1 - E + E * a * dt ^ 2) / dt * x * v + E * a * x ^ 2

/-- Another that never grows: the energy, but for terms small with the step. -/
def vigour (E a dt x v : K) : K := v ^ 2 + 2 * E / (1 + E) * a * x * (x + dt * v)
end Spec

/-- **C135.** The measure of the swing is multiplied by exactly the same number in each step, whatever the numbers are. -/
theorem C135_law {M : Mth K} {sc : Scene K} (hn : sc.par.iterations ≠ 0) {dt : K} (h0 : 0 < dt) {ia ib : Nat} {rest k c I : K} (hI : 0 < I) {w : World K} (hw : Sprung ia ib rest k c I w) (ticks : List (Tick K))
    (h : EveryStep M sc (Winds sc dt ia ib) w ticks) :
    ∃ w', w.run M sc (ticks.map .step) = some w' ∧
      swing (remains M sc.par c I dt) (k * I) dt (twist rest ia ib w') (twisting ia ib w') =
        remains M sc.par c I dt ^ ticks.length * swing (remains M sc.par c I dt) (k * I) dt (twist rest ia ib w) (twisting ia ib w) := by
  induction ticks generalizing w with
  | nil => exact ⟨w, rfl, by simp⟩
  | cons t ts ih =>
    obtain ⟨r1, e1, e2⟩ := C135_step hn h0 hI hw h.1
    obtain ⟨w', a1, a2⟩ := ih r1 h.2
    refine ⟨w', a1, ?_⟩
    rw [a2, e2, e1, List.length_cons, pow_succ]
    unfold swing
    have hd : dt ≠ 0 := h0.ne'
    field_simp
    ring

theorem vigour_step {E a dt x v : K} (hE : 0 ≤ E) :
    vigour E a dt (x + dt * v) (E * (v - a * dt * (x + dt * v))) = vigour E a dt x v - (1 - E) / (1 + E) * (v + E * (v - a * dt * (x + dt * v))) ^ 2 := by
  unfold vigour
  have : (1 + E) ≠ 0 := by linarith
  field_simp
  ring

theorem vigour_low {E a dt x v : K} (hE : 0 ≤ E) (hs : E * a * dt ^ 2 ≤ 2 * (1 + E)) :
    (1 - E * a * dt ^ 2 / (2 * (1 + E))) * v ^ 2 ≤ vigour E a dt x v ∨ a < 0 := by
  by_cases ha : a < 0
  · exact .inr ha
  left
  have hk : 0 ≤ 2 * E / (1 + E) * a := mul_nonneg (div_nonneg (by linarith) (by linarith)) (not_lt.1 ha)
  have e : vigour E a dt x v - (1 - E * a * dt ^ 2 / (2 * (1 + E))) * v ^ 2 = 2 * E / (1 + E) * a * (x + dt * v / 2) ^ 2 := by
    unfold vigour
    have : (1 + E) ≠ 0 := by linarith
    field_simp
    ring
  have := mul_nonneg hk (sq_nonneg (x + dt * v / 2))
  linarith

/-- **C135.** Whatever the damping, a spring that is not too stiff for the step never runs away: what the first state has of the second measure bounds how far it is wound up, and how fast, for ever. -/
theorem C135_bounded {M : Mth K} (hM : M.Lawful) {sc : Scene K} (hn : sc.par.iterations ≠ 0) {dt : K} (h0 : 0 < dt) {ia ib : Nat} {rest k c I : K} (hI : 0 < I) (hk : 0 ≤ k) (hc : 0 ≤ c)
    (hd : 0 ≤ sc.par.damping ∧ sc.par.damping ≤ 1) {w : World K} (hw : Sprung ia ib rest k c I w) (ticks : List (Tick K)) (h : EveryStep M sc (Winds sc dt ia ib) w ticks)
    (hs : remains M sc.par c I dt * (k * I) * dt ^ 2 ≤ 2 * (1 + remains M sc.par c I dt)) :
    let E := remains M sc.par c I dt
    let room := 1 - E * (k * I) * dt ^ 2 / (2 * (1 + E))
    ∃ w', w.run M sc (ticks.map .step) = some w' ∧ 0 ≤ room ∧
      vigour E (k * I) dt (twist rest ia ib w') (twisting ia ib w') ≤ vigour E (k * I) dt (twist rest ia ib w) (twisting ia ib w) ∧
      room * twisting ia ib w' ^ 2 ≤ vigour E (k * I) dt (twist rest ia ib w) (twisting ia ib w) ∧
      room * (2 * E / (1 + E) * (k * I)) * twist rest ia ib w' ^ 2 ≤ vigour E (k * I) dt (twist rest ia ib w) (twisting ia ib w) := by
  intro E room
  have hE0 : 0 ≤ E := mul_nonneg (hM.exp_pos _).le (hM.pow_nonneg _ _ hd.1)
  have hE1 : E ≤ 1 := by
    have h1 : M.exp (-c * dt * I) ≤ 1 := hM.exp_le _ (by have := mul_nonneg (mul_nonneg hc h0.le) hI.le; linarith [neg_mul (c * dt) I, neg_mul c dt, show -c * dt * I = -(c * dt * I) by ring])
    have h2 : M.pow sc.par.damping dt ≤ 1 := hM.pow_le _ _ hd.1 hd.2 h0.le
    have := mul_le_mul h1 h2 (hM.pow_nonneg _ _ hd.1) zero_le_one
    rw [one_mul] at this
    exact this
  have ha : 0 ≤ k * I := mul_nonneg hk hI.le
  have hroom : 0 ≤ room := by
    show 0 ≤ 1 - _ / _
    rw [sub_nonneg, div_le_one (by linarith)]
    exact hs
  have main : ∃ w', w.run M sc (ticks.map .step) = some w' ∧ vigour E (k * I) dt (twist rest ia ib w') (twisting ia ib w') ≤ vigour E (k * I) dt (twist rest ia ib w) (twisting ia ib w) := by
    clear hroom
    induction ticks generalizing w with
    | nil => exact ⟨w, rfl, le_rfl⟩
    | cons t ts ih =>
      obtain ⟨r1, e1, e2⟩ := C135_step hn h0 hI hw h.1
      obtain ⟨w', a1, a2⟩ := ih r1 h.2
      refine ⟨w', a1, a2.trans ?_⟩
      rw [e2, e1]
      have := vigour_step (E := E) (a := k * I) (dt := dt) (x := twist rest ia ib w) (v := twisting ia ib w) hE0
      show vigour E (k * I) dt (twist rest ia ib w + dt * twisting ia ib w) (E * (twisting ia ib w - k * I * dt * (twist rest ia ib w + dt * twisting ia ib w))) ≤ _
      rw [this]
      have h2 : 0 ≤ (1 - E) / (1 + E) := div_nonneg (by linarith) (by linarith)
      have h3 := mul_nonneg h2 (sq_nonneg (twisting ia ib w + E * (twisting ia ib w - k * I * dt * (twist rest ia ib w + dt * twisting ia ib w))))
      linarith
  obtain ⟨w', a1, a2⟩ := main
  refine ⟨w', a1, hroom, a2, ?_, ?_⟩
  · refine le_trans ?_ a2
    exact (vigour_low hE0 hs).resolve_right (not_lt.2 ha)
  · refine le_trans ?_ a2
    generalize twist rest ia ib w' = x
    generalize twisting ia ib w' = v
    have e : vigour E (k * I) dt x v - room * (2 * E / (1 + E) * (k * I)) * x ^ 2 = (v + E / (1 + E) * (k * I) * dt * x) ^ 2 := by
      show vigour E (k * I) dt x v - (1 - E * (k * I) * dt ^ 2 / (2 * (1 + E))) * (2 * E / (1 + E) * (k * I)) * x ^ 2 = _
      unfold vigour
      have : (1 + E) ≠ 0 := by linarith
      field_simp
      ring
    have := sq_nonneg (v + E / (1 + E) * (k * I) * dt * x)
    linarith

/-- **C135.** A spring that is weakly damped swings, and its swings die away: the square of how far it is wound up shrinks at least by the damping in each step, but for a factor. -/
theorem C135_swings {M : Mth K} (hM : M.Lawful) {sc : Scene K} (hn : sc.par.iterations ≠ 0) {dt : K} (h0 : 0 < dt) {ia ib : Nat} {rest k c I : K} (hI : 0 < I) (hd : 0 ≤ sc.par.damping)
    {w : World K} (hw : Sprung ia ib rest k c I w) (ticks : List (Tick K)) (h : EveryStep M sc (Winds sc dt ia ib) w ticks) :
    let E := remains M sc.par c I dt
    let T := 1 + E - E * (k * I) * dt ^ 2
    ∃ w', w.run M sc (ticks.map .step) = some w' ∧
      (4 * E - T ^ 2) * twist rest ia ib w' ^ 2 ≤ E ^ ticks.length * (4 * dt ^ 2 * swing E (k * I) dt (twist rest ia ib w) (twisting ia ib w)) := by
  intro E T
  obtain ⟨w', a1, a2⟩ := C135_law hn h0 hI hw ticks h
  refine ⟨w', a1, ?_⟩
  have a3 : E ^ ticks.length * (4 * dt ^ 2 * swing E (k * I) dt (twist rest ia ib w) (twisting ia ib w)) = 4 * dt ^ 2 * swing E (k * I) dt (twist rest ia ib w') (twisting ia ib w') := by
    rw [a2]; ring
  rw [a3]
  generalize twist rest ia ib w' = x
  generalize twisting ia ib w' = v
  have e : 4 * dt ^ 2 * swing E (k * I) dt x v - (4 * E - T ^ 2) * x ^ 2 = (2 * dt * v + (2 - T) * x) ^ 2 := by
    show 4 * dt ^ 2 * swing E (k * I) dt x v - (4 * E - (1 + E - E * (k * I) * dt ^ 2) ^ 2) * x ^ 2 = (2 * dt * v + (2 - (1 + E - E * (k * I) * dt ^ 2)) * x) ^ 2
    unfold swing
    have hd : dt ≠ 0 := h0.ne'
    field_simp
    ring
  have := sq_nonneg (2 * dt * v + (2 - T) * x)
  linarith

/-- **C135.** It is enough, whatever the damping, that the stiffness over the moment is at most four divided by the square of the step. -/
theorem C135_soft {E k I dt : K} (hE : 0 ≤ E) (hE1 : E ≤ 1) (h : k * I * dt ^ 2 ≤ 4) : E * (k * I) * dt ^ 2 ≤ 2 * (1 + E) ∧ (E < 1 → E * (k * I) * dt ^ 2 < 2 * (1 + E)) := by
  have := mul_le_mul_of_nonneg_left h hE
  rw [← mul_assoc] at this
  exact ⟨by linarith, fun h1 => by linarith⟩

theorem flung {E r x y : K} (hE : 0 ≤ E) (hr : 0 ≤ r) (hx : x * y ≤ 0) (hxy : |x| ≤ |y|) : y * (-(r + E) * y - E * x) ≤ 0 ∧ r * |y| ≤ |(-(r + E)) * y - E * x| := by
  have h1 : -(x * y) ≤ y ^ 2 := by
    have := mul_le_mul_of_nonneg_right hxy (abs_nonneg y)
    rw [← abs_mul, abs_mul_abs_self] at this
    have := neg_abs_le (x * y)
    nlinarith
  have h2 : y * (-(r + E) * y - E * x) ≤ -(r * y ^ 2) := by
    have := mul_le_mul_of_nonneg_left h1 hE
    nlinarith
  have h3 : 0 ≤ r * y ^ 2 := mul_nonneg hr (sq_nonneg y)
  refine ⟨by linarith, ?_⟩
  rcases eq_or_ne y 0 with rfl | hy
  · rw [abs_zero, mul_zero]; exact abs_nonneg _
  · have h4 : r * |y| * |y| ≤ |(-(r + E)) * y - E * x| * |y| := by
      rw [← abs_mul, mul_assoc, abs_mul_abs_self]
      have := neg_abs_le ((-(r + E) * y - E * x) * y)
      nlinarith
    exact le_of_mul_le_mul_right h4 (abs_pos.2 hy)

/-- **C135.** A spring that is too stiff for the step runs away, at least geometrically, from any state in which it overshoots: the condition in `C135_bounded` is the exact one. -/
theorem C135_runs_away {M : Mth K} (hM : M.Lawful) {sc : Scene K} (hn : sc.par.iterations ≠ 0) {dt : K} (h0 : 0 < dt) {ia ib : Nat} {rest k c I : K} (hI : 0 < I) (hd : 0 ≤ sc.par.damping)
    {w : World K} (hw : Sprung ia ib rest k c I w) (ticks : List (Tick K)) (h : EveryStep M sc (Winds sc dt ia ib) w ticks)
    (hs : 2 * (1 + remains M sc.par c I dt) < remains M sc.par c I dt * (k * I) * dt ^ 2) (hx : twist rest ia ib w * (twist rest ia ib w + dt * twisting ia ib w) ≤ 0)
    (hxx : |twist rest ia ib w| ≤ |twist rest ia ib w + dt * twisting ia ib w|) :
    let E := remains M sc.par c I dt
    let r := E * (k * I) * dt ^ 2 - 1 - 2 * E
    ∃ w', w.run M sc (ticks.map .step) = some w' ∧ 1 < r ∧ r ^ ticks.length * |twist rest ia ib w| ≤ r * |twist rest ia ib w'| := by
  intro E r
  have hE0 : 0 ≤ E := mul_nonneg (hM.exp_pos _).le (hM.pow_nonneg _ _ hd)
  have hr : 1 < r := by show 1 < E * (k * I) * dt ^ 2 - 1 - 2 * E; change 2 * (1 + E) < E * (k * I) * dt ^ 2 at hs; linarith
  have stp : ∀ (w : World K) (t : Tick K), Sprung ia ib rest k c I w → Winds sc dt ia ib w t (w.step M sc t) → twist rest ia ib w * (twist rest ia ib w + dt * twisting ia ib w) ≤ 0 →
      |twist rest ia ib w| ≤ |twist rest ia ib w + dt * twisting ia ib w| →
      Sprung ia ib rest k c I (w.step M sc t) ∧ twist rest ia ib (w.step M sc t) = twist rest ia ib w + dt * twisting ia ib w ∧
      twist rest ia ib (w.step M sc t) * (twist rest ia ib (w.step M sc t) + dt * twisting ia ib (w.step M sc t)) ≤ 0 ∧
      r * |twist rest ia ib (w.step M sc t)| ≤ |twist rest ia ib (w.step M sc t) + dt * twisting ia ib (w.step M sc t)| := by
    intro w t hw h hx hxx
    obtain ⟨r1, e1, e2⟩ := C135_step hn h0 hI hw h
    have e3 : twist rest ia ib (w.step M sc t) + dt * twisting ia ib (w.step M sc t) = (-(r + E)) * (twist rest ia ib w + dt * twisting ia ib w) - E * twist rest ia ib w := by
      rw [e2, e1]
      show _ = (-(E * (k * I) * dt ^ 2 - 1 - 2 * E + E)) * (twist rest ia ib w + dt * twisting ia ib w) - E * twist rest ia ib w
      show _ + dt * (E * _) = _
      ring
    obtain ⟨f1, f2⟩ := flung hE0 (by linarith : 0 ≤ r) hx hxx
    exact ⟨r1, e1, by rw [e3, e1]; exact f1, by rw [e3, e1]; exact f2⟩
  have key : ∀ (n : List (Tick K)) (w : World K), Sprung ia ib rest k c I w → EveryStep M sc (Winds sc dt ia ib) w n → twist rest ia ib w * (twist rest ia ib w + dt * twisting ia ib w) ≤ 0 →
      r * |twist rest ia ib w| ≤ |twist rest ia ib w + dt * twisting ia ib w| → ∃ w', w.run M sc (n.map .step) = some w' ∧ r ^ n.length * |twist rest ia ib w| ≤ |twist rest ia ib w'| := by
    intro n
    induction n with
    | nil => intro w _ _ _ hb; exact ⟨w, rfl, by simp⟩
    | cons t ts ih =>
      intro w hw h hx hxx
      obtain ⟨r1, e1, g1, g2⟩ := stp w t hw h.1 hx (le_trans (le_mul_of_one_le_left (abs_nonneg _) hr.le) hxx)
      obtain ⟨w', a1, a2⟩ := ih _ r1 h.2 g1 g2
      refine ⟨w', a1, le_trans ?_ a2⟩
      rw [List.length_cons, pow_succ, mul_assoc]
      refine mul_le_mul_of_nonneg_left ?_ (pow_nonneg (by linarith) _)
      rw [e1]; exact hxx
  cases ticks with
  | nil => exact ⟨w, rfl, hr, by simpa using le_mul_of_one_le_left (abs_nonneg _) hr.le⟩
  | cons t ts =>
    obtain ⟨r1, e1, g1, g2⟩ := stp w t hw h.1 hx hxx
    obtain ⟨w', a1, a2⟩ := key ts _ r1 h.2 g1 g2
    refine ⟨w', a1, hr, ?_⟩
    rw [List.length_cons, pow_succ, mul_comm (r ^ ts.length), mul_assoc]
    refine mul_le_mul_of_nonneg_left (le_trans (mul_le_mul_of_nonneg_left ?_ (pow_nonneg (by linarith) _)) a2) (by linarith)
    rw [e1]; exact hxx

/-! ## Coming to rest -/

namespace Spec
/-- Two successive terms of the recurrence `x'' = T x' - E x`. -/
def bounce (T E : K) (p : K × K) : K × K := (p.2, T * p.2 - E * p.1)
end Spec

/-- **C135.** The angles at which the spring is found in successive steps are the terms of a linear recurrence of the second order. -/
theorem C135_terms {M : Mth K} {sc : Scene K} (hn : sc.par.iterations ≠ 0) {dt : K} (h0 : 0 < dt) {ia ib : Nat} {rest k c I : K} (hI : 0 < I) {w : World K} (hw : Sprung ia ib rest k c I w) (ticks : List (Tick K))
    (h : EveryStep M sc (Winds sc dt ia ib) w ticks) :
    let E := remains M sc.par c I dt
    ∃ w', w.run M sc (ticks.map .step) = some w' ∧
      (twist rest ia ib w', twist rest ia ib w' + dt * twisting ia ib w') = (bounce (1 + E - E * (k * I) * dt ^ 2) E)^[ticks.length] (twist rest ia ib w, twist rest ia ib w + dt * twisting ia ib w) := by
  intro E
  induction ticks generalizing w with
  | nil => exact ⟨w, rfl, rfl⟩
  | cons t ts ih =>
    obtain ⟨r1, e1, e2⟩ := C135_step hn h0 hI hw h.1
    obtain ⟨w', a1, a2⟩ := ih r1 h.2
    refine ⟨w', a1, ?_⟩
    rw [a2, List.length_cons, Function.iterate_succ_apply, e2, e1]
    congr 1
    unfold bounce
    refine Prod.ext rfl ?_
    show _ + dt * (E * _) = _
    ring

open Filter Topology in
theorem dies_out {T E : ℝ} (hE0 : 0 ≤ E) (hE1 : E < 1) (hT : |T| < 1 + E) {a : ℕ → ℝ} (ha : ∀ n, a (n + 2) = T * a (n + 1) - E * a n) : Tendsto a atTop (𝓝 0) := by
  rcases lt_or_ge (T ^ 2) (4 * E) with hd | hd
  · -- the roots are not real
    have hq : ∀ n, a (n + 1) ^ 2 - T * a n * a (n + 1) + E * a n ^ 2 = E ^ n * (a 1 ^ 2 - T * a 0 * a 1 + E * a 0 ^ 2) := by
      intro n
      induction n with
      | zero => simp
      | succ n ih => rw [ha, show E ^ (n + 1) = E ^ n * E from pow_succ E n, mul_right_comm (E ^ n), ← ih]; ring
    have hb : ∀ n, a n ^ 2 ≤ E ^ n * ((a 1 ^ 2 - T * a 0 * a 1 + E * a 0 ^ 2) / (E - T ^ 2 / 4)) := by
      intro n
      rw [← mul_div_assoc, ← hq n, le_div_iff₀ (by linarith)]
      nlinarith [sq_nonneg (a (n + 1) - T / 2 * a n)]
    have h1 : Tendsto (fun n => E ^ n * ((a 1 ^ 2 - T * a 0 * a 1 + E * a 0 ^ 2) / (E - T ^ 2 / 4))) atTop (𝓝 0) := by
      simpa using (tendsto_pow_atTop_nhds_zero_of_lt_one hE0 hE1).mul_const ((a 1 ^ 2 - T * a 0 * a 1 + E * a 0 ^ 2) / (E - T ^ 2 / 4))
    have h2 : Tendsto (fun n => a n ^ 2) atTop (𝓝 0) := squeeze_zero (fun n => sq_nonneg _) hb h1
    have h3 := (Real.continuous_sqrt.tendsto 0).comp h2
    rw [Real.sqrt_zero] at h3
    refine (tendsto_zero_iff_abs_tendsto_zero a).2 (h3.congr fun n => ?_)
    simp [Real.sqrt_sq_eq_abs]
  · -- the roots are real
    have hT2 := abs_lt.1 hT
    obtain ⟨D, hD0, hD⟩ : ∃ D : ℝ, 0 ≤ D ∧ D ^ 2 = T ^ 2 - 4 * E := ⟨Real.sqrt (T ^ 2 - 4 * E), Real.sqrt_nonneg _, Real.sq_sqrt (by linarith)⟩
    have hDT : D < 2 - |T| := by
      have hT3 : |T| < 2 := by linarith
      refine lt_of_pow_lt_pow_left₀ 2 (by linarith) ?_
      rw [hD]
      have := sq_abs T
      nlinarith
    have hTT := abs_lt.1 (show |T| < 2 - D by linarith)
    set l := (T + D) / 2 with hl
    set m := (T - D) / 2 with hm
    have hl1 : |l| < 1 := abs_lt.2 ⟨by rw [hl]; linarith, by rw [hl]; linarith⟩
    have hm1 : |m| < 1 := abs_lt.2 ⟨by rw [hm]; linarith, by rw [hm]; linarith⟩
    have hz : ∀ n, a (n + 1) - l * a n = m ^ n * (a 1 - l * a 0) := by
      intro n
      induction n with
      | zero => simp
      | succ n ih =>
        rw [ha, pow_succ, mul_right_comm, ← ih, hl, hm]
        linear_combination (-(a n) / 4) * hD
    obtain ⟨ρ, h1, h2⟩ := exists_between (max_lt (max_lt hl1 hm1) zero_lt_one)
    have hρ0 : 0 < ρ := (le_max_right _ _).trans_lt h1
    have hρl : |l| ≤ ρ := ((le_max_left _ _).trans (le_max_left _ _)).trans h1.le
    have hρm : |m| ≤ ρ := ((le_max_right _ _).trans (le_max_left _ _)).trans h1.le
    set C := |a 0| + |a 1 - l * a 0| / ρ with hC
    have hC0 : 0 ≤ C := add_nonneg (abs_nonneg _) (div_nonneg (abs_nonneg _) hρ0.le)
    have hb : ∀ n : ℕ, |a n| ≤ ((n : ℝ) * ρ ^ n + ρ ^ n) * C := by
      intro n
      induction n with
      | zero => simp [hC]; positivity
      | succ n ih =>
        have e : a (n + 1) = l * a n + m ^ n * (a 1 - l * a 0) := by rw [← hz]; ring
        rw [e]
        refine (abs_add_le _ _).trans ?_
        rw [abs_mul, abs_mul, abs_pow]
        have i1 : |l| * |a n| ≤ ρ * (((n : ℝ) * ρ ^ n + ρ ^ n) * C) := mul_le_mul hρl ih (abs_nonneg _) hρ0.le
        have i2 : |m| ^ n * |a 1 - l * a 0| ≤ ρ ^ n * (ρ * C) := by
          refine mul_le_mul (pow_le_pow_left₀ (abs_nonneg _) hρm n) ?_ (abs_nonneg _) (pow_nonneg hρ0.le n)
          rw [hC, mul_add, mul_div_cancel₀ _ hρ0.ne']
          have := mul_nonneg hρ0.le (abs_nonneg (a 0))
          linarith
        push_cast
        rw [pow_succ]
        nlinarith
    have h3 : Tendsto (fun n : ℕ => ((n : ℝ) * ρ ^ n + ρ ^ n) * C) atTop (𝓝 0) := by
      have := ((tendsto_self_mul_const_pow_of_lt_one hρ0.le h2).add (tendsto_pow_atTop_nhds_zero_of_lt_one hρ0.le h2)).mul_const C
      simpa using this
    exact squeeze_zero_norm hb h3

open Filter Topology in
/-- **C135.** With real numbers: a spring that is damped at all, and not too stiff for the step, comes to rest at its angle of rest and stays there, from wherever it starts. -/
theorem C135_rests {sc : Scene ℝ} (hn : sc.par.iterations ≠ 0) {dt : ℝ} (h0 : 0 < dt) {ia ib : Nat} {rest k c I : ℝ} (hI : 0 < I) (hk : 0 < k) (hc : 0 ≤ c) (hd : 0 < sc.par.damping ∧ sc.par.damping ≤ 1)
    (hl : 0 < c ∨ sc.par.damping < 1) {w : World ℝ} (hw : Sprung ia ib rest k c I w)
    (hs : let E := Real.exp (-c * dt * I) * sc.par.damping ^ dt; E * (k * I) * dt ^ 2 < 2 * (1 + E)) {ε : ℝ} (hε : 0 < ε) :
    ∃ N, ∀ ticks : List (Tick ℝ), EveryStep realMth sc (Winds sc dt ia ib) w ticks → N ≤ ticks.length →
      ∃ w', w.run realMth sc (ticks.map .step) = some w' ∧ |twist rest ia ib w'| < ε ∧ |dt * twisting ia ib w'| < ε := by
  set E := Real.exp (-c * dt * I) * sc.par.damping ^ dt with hE
  have hE0 : 0 < E := mul_pos (Real.exp_pos _) (Real.rpow_pos_of_pos hd.1 _)
  have hp1 : sc.par.damping ^ dt ≤ 1 := Real.rpow_le_one hd.1.le hd.2 h0.le
  have hx1 : Real.exp (-c * dt * I) ≤ 1 := Real.exp_le_one_iff.2 (by have := mul_nonneg (mul_nonneg hc h0.le) hI.le; nlinarith)
  have hE1 : E < 1 := by
    rcases hl with hl | hl
    · have : Real.exp (-c * dt * I) < 1 := (Real.exp_lt_one_iff).2 (by have := mul_pos (mul_pos hl h0) hI; nlinarith)
      exact mul_lt_one_of_nonneg_of_lt_one_left (Real.exp_pos _).le this hp1
    · exact mul_lt_one_of_nonneg_of_lt_one_right hx1 (Real.rpow_nonneg hd.1.le _) (Real.rpow_lt_one hd.1.le hl h0)
  set T := 1 + E - E * (k * I) * dt ^ 2 with hT
  have hpos : 0 < E * (k * I) * dt ^ 2 := by positivity
  set p := (twist rest ia ib w, twist rest ia ib w + dt * twisting ia ib w) with hp
  have hlim := dies_out (T := T) (E := E) hE0.le hE1 (abs_lt.2 ⟨by change E * (k * I) * dt ^ 2 < 2 * (1 + E) at hs; rw [hT]; linarith, by rw [hT]; linarith⟩) (a := fun n => ((bounce T E)^[n] p).1)
    (fun n => by rw [Function.iterate_succ_apply', Function.iterate_succ_apply']; rfl)
  obtain ⟨N, hN⟩ := (Metric.tendsto_atTop.1 hlim) (ε / 2) (by linarith)
  refine ⟨N, fun ticks h hl => ?_⟩
  obtain ⟨w', a1, a2⟩ := C135_terms hn h0 hI hw ticks h
  have b1 := congrArg Prod.fst a2
  have b2 := congrArg Prod.snd a2
  have n1 := hN ticks.length hl
  have n2 := hN (ticks.length + 1) (by omega)
  rw [Function.iterate_succ_apply'] at n2
  rw [Real.dist_eq, sub_zero] at n1 n2
  change twist rest ia ib w' = ((bounce T E)^[ticks.length] p).1 at b1
  change twist rest ia ib w' + dt * twisting ia ib w' = ((bounce T E)^[ticks.length] p).2 at b2
  rw [← b1] at n1
  change |((bounce T E)^[ticks.length] p).2| < _ at n2
  rw [← b2] at n2
  refine ⟨w', a1, by linarith, ?_⟩
  have : dt * twisting ia ib w' = (twist rest ia ib w' + dt * twisting ia ib w') - twist rest ia ib w' := by ring
  rw [this]
  refine (abs_sub _ _).trans_lt ?_
  linarith

/-! ## Examples -/

/-- A wheel on a fixed axle, wound up by one and turning at the speed `v`. -/
def exWheel (v : ℚ) (k : Nat) : Body ℚ :=
  if k = 0 then { Body.blank with m := 1, mInv := 1, i := 1, iInv := 1, angle := 3, w := v } else { Body.blank with m := 0, mInv := 0, i := 0, iInv := 0 }
def exRotSpring (k : ℚ) : DampedRotarySpring ℚ := { damping := 1, torqueFn := fun x => (x - 2) * k, targetWrn := 0, wCoef := 0, iSum := 0, jAcc := 0 }
def exWound (k v : ℚ) : World ℚ := { World.init (exWheel v) (fun _ => ⟨.circle ⟨⟨0, 0⟩, ⟨0, 0⟩, 1⟩, ⟨0, 0, 0, 0⟩, 0, ⟨1, 0⟩⟩) with joints := [⟨0, 1, .rotarySpring (exRotSpring k)⟩] }

theorem exWinds {w w' : World ℚ} (h1 : (w.joints.all fun l => (l.ia == 0 || l.ia == 1) && (l.ib == 0 || l.ib == 1)) = true) (h2 : w'.active = [])
    (h3 : TurnsFreely exBalls3.par.inf exSpinTick w 0 ∧ TurnsFreely exBalls3.par.inf exSpinTick w 1) : Winds exBalls3 (1/4) 0 1 w exSpinTick w' :=
  ⟨rfl, h3, (exSwings (sc := exBalls3) h1 h2).free⟩

/-- A spring that comes back, and one that is too stiff for its steps. -/
example : exBalls3.par.iterations ≠ 0 ∧ Sprung 0 1 2 16 1 1 (exWound 16 0) ∧ EveryStep toyMth exBalls3 (Winds exBalls3 (1/4) 0 1) (exWound 16 0) [exSpinTick, exSpinTick, exSpinTick] ∧
    remains toyMth exBalls3.par 1 1 (1/4) = 1/4 ∧ (remains toyMth exBalls3.par 1 1 (1/4) * (16 * 1) * (1/4) ^ 2 < 2 * (1 + remains toyMth exBalls3.par 1 1 (1/4))) ∧
    (let w1 := (exWound 16 0).step toyMth exBalls3 exSpinTick
     let w2 := w1.step toyMth exBalls3 exSpinTick
     twist 2 0 1 (exWound 16 0) = 1 ∧ twist 2 0 1 w1 = 1 ∧ twist 2 0 1 w2 = 3/4 ∧ twist 2 0 1 (w2.step toyMth exBalls3 exSpinTick) = 1/2) := by
  refine ⟨by decide +kernel, ⟨⟨exRotSpring 16, ⟨by decide, rfl⟩, rfl, rfl⟩, by decide +kernel, by decide +kernel⟩,
    ⟨exWinds (by decide +kernel) (by decide +kernel) (by unfold TurnsFreely; decide +kernel), exWinds (by decide +kernel) (by decide +kernel) (by unfold TurnsFreely; decide +kernel),
      exWinds (by decide +kernel) (by decide +kernel) (by unfold TurnsFreely; decide +kernel), trivial⟩, by decide +kernel, by decide +kernel, by decide +kernel⟩

example : Sprung 0 1 2 256 1 1 (exWound 256 (-8)) ∧ EveryStep toyMth exBalls3 (Winds exBalls3 (1/4) 0 1) (exWound 256 (-8)) [exSpinTick, exSpinTick, exSpinTick] ∧
    (2 * (1 + remains toyMth exBalls3.par 1 1 (1/4)) < remains toyMth exBalls3.par 1 1 (1/4) * (256 * 1) * (1/4) ^ 2) ∧
    (let w := exWound 256 (-8)
     let w1 := w.step toyMth exBalls3 exSpinTick
     let w2 := w1.step toyMth exBalls3 exSpinTick
     twist 2 0 1 w * (twist 2 0 1 w + 1/4 * twisting 0 1 w) ≤ 0 ∧ |twist 2 0 1 w| ≤ |twist 2 0 1 w + 1/4 * twisting 0 1 w| ∧
     twist 2 0 1 w = 1 ∧ twist 2 0 1 w1 = -1 ∧ twist 2 0 1 w2 = 5/2 ∧ twist 2 0 1 (w2.step toyMth exBalls3 exSpinTick) = -53/8) := by
  refine ⟨⟨⟨exRotSpring 256, ⟨by decide, rfl⟩, rfl, rfl⟩, by decide +kernel, by decide +kernel⟩,
    ⟨exWinds (by decide +kernel) (by decide +kernel) (by unfold TurnsFreely; decide +kernel), exWinds (by decide +kernel) (by decide +kernel) (by unfold TurnsFreely; decide +kernel),
      exWinds (by decide +kernel) (by decide +kernel) (by unfold TurnsFreely; decide +kernel), trivial⟩, by decide +kernel, by decide +kernel⟩

end Cm
