import Verif.Props.Driven
import Verif.Model.JointNew
/-! # C137: a ratchet remembers the highest tooth it has passed, and holds it

The teeth of a ratchet lie at the angles `phase + z * ratchet`.  Everything is said in one direction, the one in which the ratchet lets the bodies turn. -/
set_option linter.unusedSectionVars false
set_option linter.unusedSimpArgs false
set_option linter.unusedVariables false

namespace Cm
open Spec
variable {K : Type} [Field K] [LinearOrder K] [IsStrictOrderedRing K]

namespace Spec
/-- An angle counted in teeth. -/
def inTeeth (phase ratchet x : K) : K := (x - phase) / ratchet
/-- `floor` is the whole part. -/
structure Floors (M : Mth K) : Prop where
  whole : ∀ x, ∃ z : ℤ, M.floor x = z
  le : ∀ x, M.floor x ≤ x
  lt : ∀ x, x < M.floor x + 1
/-- `h` is the number of the highest tooth that is not above `h₀` and all of `xs` (`h₀` itself is a tooth): a whole number, at least `h₀`, that no `x` passes by a whole tooth, and that
was there at first or has been reached. -/
structure HighestTooth (h₀ : K) (xs : List K) (h : K) : Prop where
  whole : ∃ z : ℤ, h = z
  kept : h₀ ≤ h
  passed : ∀ x ∈ xs, x < h + 1
  reached : h = h₀ ∨ ∃ x ∈ xs, h ≤ x
/-- The positions of the two bodies after each of the steps, in teeth. -/
def seenTeeth (M : Mth K) (sc : Scene K) (phase ratchet : K) (ia ib : Nat) : World K → List (Tick K) → List K
  | _, [] => []
  | w, t :: ts => inTeeth phase ratchet (between ia ib (w.step M sc t)) :: seenTeeth M sc phase ratchet ia ib (w.step M sc t) ts
/-- How far the bodies have fallen behind the angle `held`. -/
def behind (ratchet held : K) (ia ib : Nat) (w : World K) : K := if ratchet < 0 then between ia ib w - held else held - between ia ib w
/-- How fast they turn back. -/
def backing (ratchet : K) (ia ib : Nat) (w : World K) : K := if ratchet < 0 then turning 1 ia ib w else -turning 1 ia ib w
end Spec

/-! ## The arithmetic -/

theorem clamp_toothed {r x F : K} (hr : r ≠ 0) (hF : 0 ≤ F) : clamp (x * r) 0 (F * fabs r) / r = clamp x (if r < 0 then -F else 0) (if r < 0 then 0 else F) := by
  rw [div_eq_iff hr, fabs_eq]
  rcases lt_or_gt_of_ne hr with h | h
  · rw [if_pos h, if_pos h, abs_of_neg h]
    unfold clamp
    rcases lt_or_ge x 0 with hx | hx
    · rw [if_pos (mul_pos_of_neg_of_neg hx h)]
      by_cases hF' : -F < x
      · rw [if_pos hF', min_eq_left hx.le, min_eq_left (by nlinarith)]
      · rw [if_neg hF', min_eq_right (by nlinarith), min_eq_left (by linarith)]; ring
    · rw [if_neg (by nlinarith), min_eq_left (by nlinarith)]
      by_cases hF' : -F < x
      · rw [if_pos hF', min_eq_right hx, zero_mul]
      · rw [if_neg hF', min_eq_left (by linarith), show F = 0 by linarith]; ring
  · rw [if_neg h.le.not_gt, if_neg h.le.not_gt, abs_of_pos h]
    unfold clamp
    by_cases hx : 0 < x
    · rw [if_pos (mul_pos hx h), if_pos hx, min_mul_of_nonneg _ _ h.le]
    · rw [if_neg (by nlinarith), if_neg hx, min_eq_left (mul_nonneg hF h.le), min_eq_left hF, zero_mul]

theorem behind_pos {r held d : K} (hr : r ≠ 0) : 0 < (if r < 0 then d - held else held - d) ↔ 0 < (held - d) * r := by
  rcases lt_or_gt_of_ne hr with h | h
  · rw [if_pos h]
    constructor
    · intro h1; nlinarith
    · intro h1; by_contra hc; nlinarith
  · rw [if_neg h.le.not_gt]
    exact (mul_pos_iff_of_pos_right h).symm

theorem inTeeth_lt {phase r x y : K} (hr : r ≠ 0) : inTeeth phase r x < inTeeth phase r y ↔ 0 < (y - x) * r := by
  unfold inTeeth
  rw [← sub_pos, ← sub_div, show y - phase - (x - phase) = y - x by ring]
  have h2 : 0 < r * r := mul_self_pos.2 hr
  rw [← mul_pos_iff_of_pos_right h2, show (y - x) / r * (r * r) = (y - x) * r by field_simp]

theorem inTeeth_floor {phase r y : K} (hr : r ≠ 0) : inTeeth phase r (y * r + phase) = y := by
  unfold inTeeth; rw [add_sub_cancel_right, mul_div_cancel_right₀ _ hr]

/-! ## One step -/

theorem ratchet_iter (M : Mth K) {k dt : K} (n : Nat) : ∀ (a b : Body K) (g : RatchetJoint K), g.iSum = 1 / k → g.bias ≠ 0 → g.ratchet ≠ 0 → 0 ≤ g.maxForce * dt →
    (fun x : Body K × Body K × Joint K => x.2.2.applyImpulse M x.1 x.2.1 dt)^[n] (a, b, .ratchet g) =
      (fun y : Body K × Body K × K => (y.1, y.2.1, Joint.ratchet { g with jAcc := y.2.2 }))
        ((turn k 1 1 (if g.ratchet < 0 then -(g.maxForce * dt) else 0) (if g.ratchet < 0 then 0 else g.maxForce * dt) (-g.bias))^[n] (a, b, g.jAcc)) := by
  induction n with
  | zero => intro a b g _ _ _ _; rfl
  | succ n ih =>
    intro a b g hg h0 hr hF
    rw [Function.iterate_succ_apply, Function.iterate_succ_apply]
    have e : (Joint.ratchet g).applyImpulse M a b dt = (fun y : Body K × Body K × K => (y.1, y.2.1, Joint.ratchet { g with jAcc := y.2.2 }))
        (turn k 1 1 (if g.ratchet < 0 then -(g.maxForce * dt) else 0) (if g.ratchet < 0 then 0 else g.maxForce * dt) (-g.bias) (a, b, g.jAcc)) := by
      unfold Joint.applyImpulse RatchetJoint.applyImpulse turn
      dsimp only
      rw [if_neg h0, clamp_toothed hr hF, hg, mul_one_div, mul_one, show -(g.bias + (b.w - a.w)) = -g.bias - (b.w - a.w) by ring]
    dsimp only
    rw [e]
    exact ih _ _ { g with jAcc := (turn k 1 1 (if g.ratchet < 0 then -(g.maxForce * dt) else 0) (if g.ratchet < 0 then 0 else g.maxForce * dt) (-g.bias) (a, b, g.jAcc)).2.2 } hg h0 hr hF

theorem ratchet_solve (M : Mth K) {par : Params K} (hn : par.iterations ≠ 0) (prevDT dt : K) (dyn : List Nat) (ia ib : Nat) (a b : Body K) (g : RatchetJoint K)
    (hk : a.iInv + b.iInv ≠ 0) (hF : 0 ≤ g.maxForce * dt) (hr0 : g.ratchet ≠ 0) :
    let A := placed M dt dyn ia a
    let B := placed M dt dyn ib b
    let r := jointSolve M par prevDT dt dyn ia ib a b (.ratchet g)
    let β := (g.preStep M A B dt).bias
    (β = 0 → r = (readied M par dt dyn ia a, readied M par dt dyn ib b, .ratchet { g.preStep M A B dt with jAcc := 0 })) ∧
    (β ≠ 0 → Spun (readied M par dt dyn ia a, readied M par dt dyn ib b) (r.1, r.2.1) ∧ ∃ j, r.2.2 = .ratchet { g.preStep M A B dt with jAcc := j } ∧
      Drives (a.iInv + b.iInv) (if g.ratchet < 0 then -(g.maxForce * dt) else 0) (if g.ratchet < 0 then 0 else g.maxForce * dt) (-β) (r.2.1.w - r.1.w) j) := by
  intro A B r β
  have hA : A.iInv = a.iInv := by show (placed M dt dyn ia a).iInv = _; unfold placed; split <;> rfl
  have hB : B.iInv = b.iInv := by show (placed M dt dyn ib b).iInv = _; unfold placed; split <;> rfl
  obtain ⟨a1, -⟩ := readied_frame M par dt dyn ia a
  obtain ⟨b1, -⟩ := readied_frame M par dt dyn ib b
  have f0 : β = 0 → (g.preStep M A B dt).jAcc = 0 := fun h => if_pos h
  have f1 : (g.preStep M A B dt).iSum = 1 / (a.iInv + b.iInv) := by rw [← hA, ← hB]; rfl
  have f2 : (g.preStep M A B dt).maxForce = g.maxForce := rfl
  have f3 : (g.preStep M A B dt).ratchet = g.ratchet := rfl
  have hβ : (g.preStep M A B dt).bias = β := rfl
  clear_value β
  generalize hco : (if prevDT ≠ 0 then dt / prevDT else 0) = co
  have hr : r = (fun x : Body K × Body K × Joint K => x.2.2.applyImpulse M x.1 x.2.1 dt)^[par.iterations]
      ((spin (readied M par dt dyn ia a) (readied M par dt dyn ib b) ((g.preStep M A B dt).jAcc * co) 1).1,
        (spin (readied M par dt dyn ia a) (readied M par dt dyn ib b) ((g.preStep M A B dt).jAcc * co) 1).2, .ratchet (g.preStep M A B dt)) := by
    rw [← hco]; rfl
  generalize g.preStep M A B dt = g1 at *
  clear_value r
  subst hβ
  constructor
  · intro h0
    have hj := f0 h0
    rw [hr, hj, zero_mul, show spin (readied M par dt dyn ia a) (readied M par dt dyn ib b) 0 1 = (readied M par dt dyn ia a, readied M par dt dyn ib b) by simp [spin]]
    refine Eq.trans (Function.iterate_fixed ?_ _) ?_
    · show (Joint.ratchet g1).applyImpulse M _ _ dt = _
      unfold Joint.applyImpulse RatchetJoint.applyImpulse
      dsimp only
      rw [if_pos h0]
    · rw [← hj]
  · intro h0
    rw [ratchet_iter M par.iterations _ _ _ f1 h0 (by rw [f3]; exact hr0) (by rw [f2]; exact hF), f2] at hr
    have hsp := spun_spin (readied M par dt dyn ia a) (readied M par dt dyn ib b) (g1.jAcc * co) 1
    generalize spin (readied M par dt dyn ia a) (readied M par dt dyn ib b) (g1.jAcc * co) 1 = ab at hr hsp
    have hi : ab.1.iInv = a.iInv ∧ ab.2.iInv = b.iInv := ⟨by rw [hsp.1.1]; exact a1, by rw [hsp.2.1]; exact b1⟩
    have ht := turns_drive (k := a.iInv + b.iInv) (t := -g1.bias) (ratio := 1) (c := 1) (x := (ab.1, ab.2, g1.jAcc)) (lo := if g1.ratchet < 0 then -(g.maxForce * dt) else 0)
      (hi := if g1.ratchet < 0 then 0 else g.maxForce * dt) hk (by rw [hi.1, hi.2]; ring) (by split <;> linarith) hn
    have hs := spun_turns (a.iInv + b.iInv) 1 1 (if g1.ratchet < 0 then -(g.maxForce * dt) else 0) (if g1.ratchet < 0 then 0 else g.maxForce * dt) (-g1.bias) par.iterations (ab.1, ab.2, g1.jAcc)
    rw [hr, ← f3]
    refine ⟨spun_trans hsp hs, _, rfl, ?_⟩
    have := ht.2
    rw [mul_one] at this
    exact this

/-- **C137.** One step with a ratchet: if the bodies have not fallen behind the held tooth, they turn as if there were no joint, and the tooth they have passed last is held from now on;
if they have, the tooth stays, and the joint only ever pushes forward, exactly as much as it takes to give the bodies the speed with which it wants to make up for it, if its greatest
force allows that. -/
theorem C137_step {M : Mth K} {sc : Scene K} (hn : sc.par.iterations ≠ 0) {w : World K} {t : Tick K} {ia ib : Nat} {g : RatchetJoint K} (h0 : 0 < t.dt)
    (hj : JoinedBy w ia ib (.ratchet g)) (h : Plain sc t.dt ia ib w t (w.step M sc t)) (hk : (w.bodies ia).iInv + (w.bodies ib).iInv ≠ 0)
    (hF : 0 ≤ g.maxForce) (hB : 0 < g.maxBias) (hp : M.pow g.errorBias t.dt < 1) (hr : g.ratchet ≠ 0) :
    let w' := w.step M sc t
    let F := g.maxForce * t.dt
    let k := (w.bodies ia).iInv + (w.bodies ib).iInv
    let β := upTo g.maxBias ((1 - M.pow g.errorBias t.dt) * behind g.ratchet g.angle ia ib w' / t.dt)
    Onward t.dt ia ib w w' ∧ ∃ g', JoinedBy w' ia ib (.ratchet g') ∧ (g'.toJointCfg = g.toJointCfg ∧ g'.phase = g.phase ∧ g'.ratchet = g.ratchet) ∧
      (behind g.ratchet g.angle ia ib w' ≤ 0 → g'.angle = M.floor (inTeeth g.phase g.ratchet (between ia ib w')) * g.ratchet + g.phase ∧ g'.jAcc = 0 ∧
        (w'.bodies ia).w = (coast M sc.par t.dyn t.dt ia (w.bodies ia)).w ∧ (w'.bodies ib).w = (coast M sc.par t.dyn t.dt ib (w.bodies ib)).w) ∧
      (0 < behind g.ratchet g.angle ia ib w' → g'.angle = g.angle ∧
        (g.ratchet < 0 → Drives k (-F) 0 (-β) (turning 1 ia ib w') g'.jAcc) ∧ (0 < g.ratchet → Drives k 0 F β (turning 1 ia ib w') g'.jAcc)) := by
  intro w' F k β
  obtain ⟨ea, eb, ej⟩ := only_joint h0.ne' hj h.free (movable_of (c := 1) (ratio := 1) (by rw [mul_one, one_mul]; exact hk))
  obtain ⟨s0, s1⟩ := ratchet_solve M hn w.prevDT t.dt t.dyn ia ib (w.bodies ia) (w.bodies ib) g hk (mul_nonneg hF h0.le) hr
  have hsp : Spun (readied M sc.par t.dt t.dyn ia (w.bodies ia), readied M sc.par t.dt t.dyn ib (w.bodies ib))
      ((jointSolve M sc.par w.prevDT t.dt t.dyn ia ib (w.bodies ia) (w.bodies ib) (.ratchet g)).1, (jointSolve M sc.par w.prevDT t.dt t.dyn ia ib (w.bodies ia) (w.bodies ib) (.ratchet g)).2.1) := by
    by_cases hb : (g.preStep M (placed M t.dt t.dyn ia (w.bodies ia)) (placed M t.dt t.dyn ib (w.bodies ib)) t.dt).bias = 0
    · rw [s0 hb]; exact spun_refl _
    · exact (s1 hb).1
  obtain ⟨hon, pa, pb⟩ := plain_onward (jt := .ratchet g) h hsp ea eb
  have hpos : 0 < behind g.ratchet g.angle ia ib w' ↔ 0 < (g.angle - between ia ib w') * g.ratchet := behind_pos hr
  have hbias : (g.preStep M (placed M t.dt t.dyn ia (w.bodies ia)) (placed M t.dt t.dyn ib (w.bodies ib)) t.dt).bias =
      upTo g.maxBias ((1 - M.pow g.errorBias t.dt) * -(if (g.angle - between ia ib w') * g.ratchet > 0 then g.angle - between ia ib w' else 0) / t.dt) := by
    show clamp (-(biasCoef M g.errorBias t.dt) * (if (g.angle - ((placed M t.dt t.dyn ib (w.bodies ib)).angle - (placed M t.dt t.dyn ia (w.bodies ia)).angle)) * g.ratchet > 0 then _ else _ : K × K).1 / t.dt) _ _ = _
    rw [clamp_upTo hB.le, pa, pb]
    unfold biasCoef between
    rw [neg_mul, mul_neg]
    split <;> rfl
  have hangle : (g.preStep M (placed M t.dt t.dyn ia (w.bodies ia)) (placed M t.dt t.dyn ib (w.bodies ib)) t.dt).angle =
      if (g.angle - between ia ib w') * g.ratchet > 0 then g.angle else M.floor (inTeeth g.phase g.ratchet (between ia ib w')) * g.ratchet + g.phase := by
    show (if (g.angle - ((placed M t.dt t.dyn ib (w.bodies ib)).angle - (placed M t.dt t.dyn ia (w.bodies ia)).angle)) * g.ratchet > 0 then _ else _ : K × K).2 = _
    rw [pa, pb]
    unfold between inTeeth
    split <;> rfl
  have sg : ∀ x, 0 < x → 0 < upTo g.maxBias ((1 - M.pow g.errorBias t.dt) * x / t.dt) := fun x hx => upTo_pos hB (div_pos (mul_pos (by linarith) hx) h0)
  refine ⟨hon, ?_⟩
  generalize hpre : g.preStep M (placed M t.dt t.dyn ia (w.bodies ia)) (placed M t.dt t.dyn ib (w.bodies ib)) t.dt = g1 at s0 s1 hbias hangle
  have hset : g1.toJointCfg = g.toJointCfg ∧ g1.phase = g.phase ∧ g1.ratchet = g.ratchet := by rw [← hpre]; exact ⟨rfl, rfl, rfl⟩
  have hsign : 0 < behind g.ratchet g.angle ia ib w' → g1.bias = (if g.ratchet < 0 then β else -β) ∧ 0 < β := by
    intro hlt
    refine ⟨?_, sg _ hlt⟩
    rw [if_pos (hpos.1 hlt)] at hbias
    rw [hbias]
    show _ = if g.ratchet < 0 then upTo g.maxBias ((1 - M.pow g.errorBias t.dt) * (if g.ratchet < 0 then _ else _) / t.dt) else -upTo g.maxBias ((1 - M.pow g.errorBias t.dt) * (if g.ratchet < 0 then _ else _) / t.dt)
    by_cases hn : g.ratchet < 0
    · simp only [if_pos hn]; rw [neg_sub]
    · simp only [if_neg hn]; rw [mul_neg, neg_div, upTo_neg hB.le]
  by_cases hlt : 0 < behind g.ratchet g.angle ia ib w'
  · obtain ⟨hs1, hs2⟩ := hsign hlt
    have hb : g1.bias ≠ 0 := by
      rw [hs1]; split
      · exact hs2.ne'
      · exact (neg_neg_of_pos hs2).ne
    obtain ⟨-, j, r1, r2⟩ := s1 hb
    rw [r1] at ej
    rw [← ea, ← eb, hs1] at r2
    have ht : turning 1 ia ib w' = ((w.step M sc t).bodies ib).w - ((w.step M sc t).bodies ia).w := by unfold turning; rw [mul_one]
    refine ⟨_, ej, hset, fun hc => absurd hlt hc.not_gt, fun _ => ⟨?_, fun h1 => ?_, fun h1 => ?_⟩⟩
    · show g1.angle = _
      rw [hangle, if_pos (hpos.1 hlt)]
    · rw [ht]; simpa only [if_pos h1] using r2
    · rw [ht]; simpa only [if_neg h1.le.not_gt, neg_neg] using r2
  · have hc : ¬ (g.angle - between ia ib w') * g.ratchet > 0 := fun hc => hlt (hpos.2 hc)
    rw [if_neg hc, neg_zero, mul_zero, zero_div] at hbias
    have hb : g1.bias = 0 := by
      rw [hbias]; unfold upTo
      rw [min_eq_left hB.le, max_eq_right (by linarith)]
    have e := s0 hb
    rw [e] at ea eb ej
    refine ⟨_, ej, hset, fun _ => ⟨?_, rfl, by rw [ea]; exact readied_coast .., by rw [eb]; exact readied_coast ..⟩, fun hc => absurd hc hlt⟩
    show g1.angle = _
    rw [hangle, if_neg hc]

/-! ## Any number of steps -/

/-- What has been reached after a step with a ratchet that now holds the angle `held`. -/
structure RatchetRuns (ia ib : Nat) (g : RatchetJoint K) (k held : K) (w : World K) : Prop where
  joint : ∃ g', JoinedBy w ia ib (.ratchet g') ∧ (g'.toJointCfg = g.toJointCfg ∧ g'.phase = g.phase ∧ g'.ratchet = g.ratchet) ∧ g'.angle = held
  mass : (w.bodies ia).iInv + (w.bodies ib).iInv = k

theorem ratchet_runs {M : Mth K} {sc : Scene K} (hn : sc.par.iterations ≠ 0) {dt : K} (h0 : 0 < dt) {ia ib : Nat} {g : RatchetJoint K} {k held : K} (hk : k ≠ 0) (hF : 0 ≤ g.maxForce) (hB : 0 < g.maxBias)
    (hp : M.pow g.errorBias dt < 1) (hr : g.ratchet ≠ 0) {w : World K} (hw : RatchetRuns ia ib g k held w) {t : Tick K} (h : Plain sc dt ia ib w t (w.step M sc t)) :
    ∃ held', RatchetRuns ia ib g k held' (w.step M sc t) ∧ behind g.ratchet held ia ib (w.step M sc t) = behind g.ratchet held ia ib w + backing g.ratchet ia ib w * dt ∧
      (behind g.ratchet held ia ib (w.step M sc t) ≤ 0 → held' = M.floor (inTeeth g.phase g.ratchet (between ia ib (w.step M sc t))) * g.ratchet + g.phase) ∧
      (0 < behind g.ratchet held ia ib (w.step M sc t) → held' = held ∧ (0 < k → (∀ g', JoinedBy (w.step M sc t) ia ib (.ratchet g') → |g'.jAcc| < g'.maxForce * dt) →
        backing g.ratchet ia ib (w.step M sc t) * dt ≤ -upTo (g.maxBias * dt) ((1 - M.pow g.errorBias dt) * behind g.ratchet held ia ib (w.step M sc t)))) := by
  obtain ⟨⟨g1, j1, ⟨c1, c2, c3⟩, rfl⟩, hmass⟩ := hw
  obtain rfl := h.length
  have f1 : g1.maxForce = g.maxForce := congrArg JointCfg.maxForce c1
  have f2 : g1.maxBias = g.maxBias := congrArg JointCfg.maxBias c1
  have f3 : g1.errorBias = g.errorBias := congrArg JointCfg.errorBias c1
  obtain ⟨on, g2, j2, ⟨d1, d2, d3⟩, dfree, dheld⟩ := C137_step hn h0 j1 h (by rw [hmass]; exact hk) (by rw [f1]; exact hF) (by rw [f2]; exact hB) (by rw [f3]; exact hp) (by rw [c3]; exact hr)
  rw [c2, c3] at dfree
  rw [c3, f1, f2, f3, hmass] at dheld
  have f4 : g2.maxForce = g.maxForce := (congrArg JointCfg.maxForce d1).trans f1
  refine ⟨g2.angle, ⟨⟨g2, j2, ⟨d1.trans c1, d2.trans c2, d3.trans c3⟩, rfl⟩, by rw [on.mass.1, on.mass.2, hmass]⟩, ?_, fun hc => (dfree hc).1, fun hc => ⟨(dheld hc).1, fun hk hi => ?_⟩⟩
  · unfold behind backing between turning
    rw [on.angle.1, on.angle.2]
    split <;> ring
  · have hlt := hi g2 j2
    rw [f4] at hlt
    obtain ⟨l1, l2⟩ := abs_lt.1 hlt
    obtain ⟨-, dn, dp⟩ := dheld hc
    rw [show ∀ x, (1 - M.pow g.errorBias t.dt) * x = (1 - M.pow g.errorBias t.dt) * x / t.dt * t.dt from fun x => (div_mul_cancel₀ _ h0.ne').symm, upTo_mul h0.le, ← neg_mul]
    refine mul_le_mul_of_nonneg_right ?_ h0.le
    by_contra hcon
    rw [not_le] at hcon
    rcases lt_or_gt_of_ne hr with hs | hs
    · rw [show backing g.ratchet ia ib (w.step M sc t) = turning 1 ia ib (w.step M sc t) from if_pos hs] at hcon
      have := (dn hs).past (mul_neg_of_neg_of_pos (by linarith) hk)
      linarith
    · rw [show backing g.ratchet ia ib (w.step M sc t) = -turning 1 ia ib (w.step M sc t) from if_neg hs.le.not_gt] at hcon
      have := (dp hs).short (mul_pos (by linarith) hk)
      linarith

theorem highest_cons {h₀ h₁ h x : K} {xs : List K} (h01 : HighestTooth h₀ [x] h₁) (h1 : HighestTooth h₁ xs h) : HighestTooth h₀ (x :: xs) h := by
  refine ⟨h1.whole, h01.kept.trans h1.kept, fun y hy => ?_, ?_⟩
  · rcases List.mem_cons.1 hy with rfl | hy
    · have := h01.passed y (by simp)
      linarith [h1.kept]
    · exact h1.passed y hy
  · rcases h1.reached with rfl | ⟨y, hy, hle⟩
    · rcases h01.reached with rfl | ⟨y, hy, hle⟩
      · exact .inl rfl
      · exact .inr ⟨x, by simp, by simpa using (List.mem_singleton.1 hy) ▸ hle⟩
    · exact .inr ⟨y, by simp [hy], hle⟩

/-- The highest tooth is only one. -/
theorem highest_unique {h₀ h h' : K} {xs : List K} (hz : ∃ z : ℤ, h₀ = z) (h1 : HighestTooth h₀ xs h) (h2 : HighestTooth h₀ xs h') : h = h' := by
  have key : ∀ {a b : K}, HighestTooth h₀ xs a → HighestTooth h₀ xs b → a ≤ b := by
    intro a b ha hb
    obtain ⟨za, rfl⟩ := ha.whole
    obtain ⟨zb, rfl⟩ := hb.whole
    rcases ha.reached with e | ⟨x, hx, hle⟩
    · rw [e]; exact hb.kept
    · have := hle.trans_lt (hb.passed x hx)
      have : za < zb + 1 := by exact_mod_cast this
      exact_mod_cast Int.lt_add_one_iff.1 this
  exact le_antisymm (key h1 h2) (key h2 h1)

/-- **C137.** Whatever the two bodies do, and however strong the joint is: after any number of steps the ratchet holds exactly the highest tooth among the one it held at first and those
the bodies have been seen to pass. -/
theorem C137_memory {M : Mth K} (hM : Floors M) {sc : Scene K} (hn : sc.par.iterations ≠ 0) {dt : K} (h0 : 0 < dt) {ia ib : Nat} {g : RatchetJoint K} {w : World K}
    (hj : JoinedBy w ia ib (.ratchet g)) (hk : (w.bodies ia).iInv + (w.bodies ib).iInv ≠ 0) (hF : 0 ≤ g.maxForce) (hB : 0 < g.maxBias) (hp : M.pow g.errorBias dt < 1) (hr : g.ratchet ≠ 0)
    (hz : ∃ z : ℤ, inTeeth g.phase g.ratchet g.angle = z) (ticks : List (Tick K)) (h : EveryStep M sc (fun w t w' => Plain sc dt ia ib w t w') w ticks) :
    ∃ w' g', w.run M sc (ticks.map .step) = some w' ∧ JoinedBy w' ia ib (.ratchet g') ∧ g'.phase = g.phase ∧ g'.ratchet = g.ratchet ∧
      HighestTooth (inTeeth g.phase g.ratchet g.angle) (seenTeeth M sc g.phase g.ratchet ia ib w ticks) (inTeeth g.phase g.ratchet g'.angle) := by
  suffices H : ∀ (ticks : List (Tick K)) (w : World K) (held k : K), k ≠ 0 → RatchetRuns ia ib g k held w → (∃ z : ℤ, inTeeth g.phase g.ratchet held = z) →
      EveryStep M sc (fun w t w' => Plain sc dt ia ib w t w') w ticks →
      ∃ w' g', w.run M sc (ticks.map .step) = some w' ∧ JoinedBy w' ia ib (.ratchet g') ∧ g'.phase = g.phase ∧ g'.ratchet = g.ratchet ∧
        HighestTooth (inTeeth g.phase g.ratchet held) (seenTeeth M sc g.phase g.ratchet ia ib w ticks) (inTeeth g.phase g.ratchet g'.angle) from
    H ticks w g.angle _ hk ⟨⟨g, hj, ⟨rfl, rfl, rfl⟩, rfl⟩, rfl⟩ hz h
  clear h hz hk hj w ticks
  intro ticks
  induction ticks with
  | nil =>
    intro w held k hk hw hz _
    obtain ⟨⟨g', j1, ⟨-, c2, c3⟩, rfl⟩, -⟩ := hw
    exact ⟨w, g', rfl, j1, c2, c3, hz, le_rfl, fun _ hx => absurd hx List.not_mem_nil, .inl rfl⟩
  | cons t ts ih =>
    intro w held k hk hw hz h
    obtain ⟨hp0, hrest⟩ := h
    obtain ⟨held', hw', -, hfree, hheld⟩ := ratchet_runs hn h0 hk hF hB hp hr hw hp0
    have hone : HighestTooth (inTeeth g.phase g.ratchet held) [inTeeth g.phase g.ratchet (between ia ib (w.step M sc t))] (inTeeth g.phase g.ratchet held') := by
      have hpos : 0 < behind g.ratchet held ia ib (w.step M sc t) ↔ inTeeth g.phase g.ratchet (between ia ib (w.step M sc t)) < inTeeth g.phase g.ratchet held :=
        (behind_pos hr).trans (inTeeth_lt hr).symm
      by_cases hlt : 0 < behind g.ratchet held ia ib (w.step M sc t)
      · rw [(hheld hlt).1]
        refine ⟨hz, le_rfl, fun x hx => ?_, .inl rfl⟩
        rw [List.mem_singleton.1 hx]
        linarith [hpos.1 hlt]
      · rw [hfree (not_lt.1 hlt), inTeeth_floor hr]
        have hle := not_lt.1 (fun hc => hlt (hpos.2 hc))
        refine ⟨hM.whole _, ?_, fun x hx => ?_, .inr ⟨_, List.mem_singleton.2 rfl, hM.le _⟩⟩
        · obtain ⟨z, hz⟩ := hz
          obtain ⟨y, hy⟩ := hM.whole (inTeeth g.phase g.ratchet (between ia ib (w.step M sc t)))
          have := hle.trans_lt (hM.lt _)
          rw [hz, hy] at this
          rw [hz, hy]
          have : z < y + 1 := by exact_mod_cast this
          exact_mod_cast Int.lt_add_one_iff.1 this
        · rw [List.mem_singleton.1 hx]; exact hM.lt _
    obtain ⟨w', g', q1, q2, q3, q4, q5⟩ := ih _ held' k hk hw' hone.whole hrest
    exact ⟨w', g', q1, q2, q3, q4, highest_cons hone q5⟩

/-- **C137.** `NewRatchetJoint` makes a ratchet that holds the angle the bodies have, which need not be a tooth.  In general, with any angle to begin with: as long as the bodies are behind
it, that angle is held; as soon as they have once not been, the ratchet holds the highest tooth passed since, which may lie below the first angle, but by less than a tooth. -/
theorem C137_first {M : Mth K} (hM : Floors M) {sc : Scene K} (hn : sc.par.iterations ≠ 0) {dt : K} (h0 : 0 < dt) {ia ib : Nat} {g : RatchetJoint K} {w : World K}
    (hj : JoinedBy w ia ib (.ratchet g)) (hk : (w.bodies ia).iInv + (w.bodies ib).iInv ≠ 0) (hF : 0 ≤ g.maxForce) (hB : 0 < g.maxBias) (hp : M.pow g.errorBias dt < 1) (hr : g.ratchet ≠ 0)
    (ticks : List (Tick K)) (h : EveryStep M sc (fun w t w' => Plain sc dt ia ib w t w') w ticks) :
    ∃ w' g', w.run M sc (ticks.map .step) = some w' ∧ JoinedBy w' ia ib (.ratchet g') ∧ g'.phase = g.phase ∧ g'.ratchet = g.ratchet ∧
      let first := inTeeth g.phase g.ratchet g.angle
      let seen := seenTeeth M sc g.phase g.ratchet ia ib w ticks
      let now := inTeeth g.phase g.ratchet g'.angle
      ((∀ x ∈ seen, x < first) ∧ g'.angle = g.angle) ∨
        ((∃ z : ℤ, now = z) ∧ first - 1 < now ∧ (∀ x ∈ seen, x < now + 1 ∨ x < first) ∧ ∃ x ∈ seen, first ≤ x ∧ now ≤ x) := by
  induction ticks generalizing w g with
  | nil => exact ⟨w, g, rfl, hj, rfl, rfl, .inl ⟨fun _ hx => absurd hx List.not_mem_nil, rfl⟩⟩
  | cons t ts ih =>
    obtain ⟨hp0, hrest⟩ := h
    obtain ⟨held', hw', -, hfree, hheld⟩ := ratchet_runs hn h0 hk hF hB hp hr ⟨⟨g, hj, ⟨rfl, rfl, rfl⟩, rfl⟩, rfl⟩ hp0
    obtain ⟨⟨g1, j1, ⟨c1, c2, c3⟩, c4⟩, hm⟩ := hw'
    have f1 : g1.maxForce = g.maxForce := congrArg JointCfg.maxForce c1
    have f2 : g1.maxBias = g.maxBias := congrArg JointCfg.maxBias c1
    have f3 : g1.errorBias = g.errorBias := congrArg JointCfg.errorBias c1
    have hpos : 0 < behind g.ratchet g.angle ia ib (w.step M sc t) ↔ inTeeth g.phase g.ratchet (between ia ib (w.step M sc t)) < inTeeth g.phase g.ratchet g.angle :=
      (behind_pos hr).trans (inTeeth_lt hr).symm
    by_cases hlt : 0 < behind g.ratchet g.angle ia ib (w.step M sc t)
    · obtain ⟨w', g', q1, q2, q3, q4, q5⟩ := ih j1 (by rw [hm]; exact hk) (by rw [f1]; exact hF) (by rw [f2]; exact hB) (by rw [f3]; exact hp) (by rw [c3]; exact hr) hrest
      rw [c2, c3, c4, (hheld hlt).1] at q5
      refine ⟨w', g', q1, q2, q3.trans c2, q4.trans c3, ?_⟩
      rcases q5 with ⟨a1, a2⟩ | ⟨a1, a2, a3, x, hx, a4⟩
      · refine .inl ⟨fun x hx => ?_, a2⟩
        rcases List.mem_cons.1 hx with rfl | hx
        · exact hpos.1 hlt
        · exact a1 x hx
      · refine .inr ⟨a1, a2, fun y hy => ?_, x, List.mem_cons_of_mem _ hx, a4⟩
        rcases List.mem_cons.1 hy with rfl | hy
        · exact .inr (hpos.1 hlt)
        · exact a3 y hy
    · have e := hfree (not_lt.1 hlt)
      have hle := not_lt.1 (fun hc => hlt (hpos.2 hc))
      have et : inTeeth g.phase g.ratchet g1.angle = M.floor (inTeeth g.phase g.ratchet (between ia ib (w.step M sc t))) := by rw [c4, e, inTeeth_floor hr]
      obtain ⟨w', g', q1, q2, q3, q4, q5⟩ := C137_memory hM hn h0 j1 (by rw [hm]; exact hk) (by rw [f1]; exact hF) (by rw [f2]; exact hB) (by rw [f3]; exact hp) (by rw [c3]; exact hr)
        (by rw [c2, c3, et]; exact hM.whole _) ts hrest
      rw [c2, c3, et] at q5
      have l1 := hM.lt (inTeeth g.phase g.ratchet (between ia ib (w.step M sc t)))
      have l2 := hM.le (inTeeth g.phase g.ratchet (between ia ib (w.step M sc t)))
      refine ⟨w', g', q1, q2, q3.trans c2, q4.trans c3, .inr ⟨q5.whole, by linarith [q5.kept], fun y hy => ?_, ?_⟩⟩
      · rcases List.mem_cons.1 hy with rfl | hy
        · exact .inl (by linarith [q5.kept])
        · exact .inl (q5.passed y hy)
      · rcases q5.reached with e' | ⟨x, hx, hx'⟩
        · exact ⟨_, List.mem_cons_self, hle, by rw [e']; exact l2⟩
        · rcases le_total (inTeeth g.phase g.ratchet g.angle) x with hc | hc
          · exact ⟨x, List.mem_cons_of_mem _ hx, hc, hx'⟩
          · exact ⟨_, List.mem_cons_self, hle, by linarith⟩

/-- **C137.** A ratchet that is strong enough holds: if the bodies never turn back by more than `D` within one step that they begin in front of the held tooth, they are never more than `D`
behind it, however long and in whatever way they are turned. -/
theorem C137_holds {M : Mth K} (hM : Floors M) {sc : Scene K} (hn : sc.par.iterations ≠ 0) {dt : K} (h0 : 0 < dt) {ia ib : Nat} {g : RatchetJoint K} {w : World K}
    (hj : JoinedBy w ia ib (.ratchet g)) (hk : 0 < (w.bodies ia).iInv + (w.bodies ib).iInv) (hF : 0 ≤ g.maxForce) (hB : 0 < g.maxBias) (hp : M.pow g.errorBias dt < 1) (hr : g.ratchet ≠ 0)
    {D : K} (hD : 0 ≤ D) (hs : behind g.ratchet g.angle ia ib w ≤ 0) (ticks : List (Tick K))
    (h : EveryStep M sc (fun w t w' => Plain sc dt ia ib w t w' ∧ (∀ g', JoinedBy w ia ib (.ratchet g') → behind g.ratchet g'.angle ia ib w ≤ 0 → backing g.ratchet ia ib w * dt ≤ D) ∧
      ∀ g', JoinedBy w' ia ib (.ratchet g') → 0 < behind g.ratchet g'.angle ia ib w' → |g'.jAcc| < g'.maxForce * dt) w ticks) :
    ∃ w' g', w.run M sc (ticks.map .step) = some w' ∧ JoinedBy w' ia ib (.ratchet g') ∧ behind g.ratchet g'.angle ia ib w' ≤ D := by
  suffices H : ∀ (ticks : List (Tick K)) (w : World K) (held k : K), 0 < k → RatchetRuns ia ib g k held w → behind g.ratchet held ia ib w ≤ D →
      (0 < behind g.ratchet held ia ib w → backing g.ratchet ia ib w * dt ≤ 0) →
      EveryStep M sc (fun w t w' => Plain sc dt ia ib w t w' ∧ (∀ g', JoinedBy w ia ib (.ratchet g') → behind g.ratchet g'.angle ia ib w ≤ 0 → backing g.ratchet ia ib w * dt ≤ D) ∧
        ∀ g', JoinedBy w' ia ib (.ratchet g') → 0 < behind g.ratchet g'.angle ia ib w' → |g'.jAcc| < g'.maxForce * dt) w ticks →
      ∃ w' g', w.run M sc (ticks.map .step) = some w' ∧ JoinedBy w' ia ib (.ratchet g') ∧ behind g.ratchet g'.angle ia ib w' ≤ D from
    H ticks w g.angle _ hk ⟨⟨g, hj, ⟨rfl, rfl, rfl⟩, rfl⟩, rfl⟩ (hs.trans hD) (fun hc => absurd hs hc.not_ge) h
  clear h hs hk hj w ticks
  intro ticks
  induction ticks with
  | nil =>
    intro w held k hk hw hd _ _
    obtain ⟨⟨g', j1, -, rfl⟩, -⟩ := hw
    exact ⟨w, g', rfl, j1, hd⟩
  | cons t ts ih =>
    intro w held k hk hw hd hv h
    obtain ⟨⟨hp0, hway, hi⟩, hrest⟩ := h
    have hw1 := hw
    obtain ⟨⟨g1, j1, -, e1⟩, -⟩ := hw1
    obtain ⟨held', hw', hmove, hfree, hheld⟩ := ratchet_runs hn h0 hk.ne' hF hB hp hr hw hp0
    by_cases hlt : 0 < behind g.ratchet held ia ib (w.step M sc t)
    · obtain ⟨rfl, hback⟩ := hheld hlt
      have hi' : ∀ g', JoinedBy (w.step M sc t) ia ib (.ratchet g') → |g'.jAcc| < g'.maxForce * dt := by
        intro g' j'
        obtain ⟨⟨g2, j2, -, e2⟩, -⟩ := hw'
        have : g' = g2 := by simpa using joined_unique j' j2
        subst this
        exact hi g' j' (by rw [e2]; exact hlt)
      have hb := hback hk hi'
      have hup : 0 < upTo (g.maxBias * dt) ((1 - M.pow g.errorBias dt) * behind g.ratchet held' ia ib (w.step M sc t)) :=
        upTo_pos (mul_pos hB h0) (mul_pos (by linarith) hlt)
      refine ih _ held' k hk hw' ?_ (fun _ => by linarith) hrest
      rw [hmove]
      by_cases hw0 : 0 < behind g.ratchet held' ia ib w
      · linarith [hv hw0]
      · have := hway g1 j1 (by rw [e1]; exact not_lt.1 hw0)
        linarith
    · have hle : behind g.ratchet held' ia ib (w.step M sc t) ≤ 0 := by
        rw [hfree (not_lt.1 hlt)]
        refine not_lt.1 fun hc => ?_
        have := (inTeeth_lt (phase := g.phase) hr).2 ((behind_pos hr).1 hc)
        rw [inTeeth_floor hr] at this
        exact absurd this (hM.le _).not_gt
      exact ih _ held' k hk hw' (hle.trans hD) (fun hc => absurd hle hc.not_ge) hrest

/-- **C137.** Bodies that have fallen behind are brought back at least as fast as the joint wants them to be, as long as it is strong enough and until they are back, and the tooth does not
change meanwhile. -/
theorem C137_returns {M : Mth K} {sc : Scene K} (hn : sc.par.iterations ≠ 0) {dt : K} (h0 : 0 < dt) {ia ib : Nat} {g : RatchetJoint K} {w : World K}
    (hj : JoinedBy w ia ib (.ratchet g)) (hk : 0 < (w.bodies ia).iInv + (w.bodies ib).iInv) (hF : 0 ≤ g.maxForce) (hB : 0 < g.maxBias) (hp0 : 0 ≤ M.pow g.errorBias dt) (hp : M.pow g.errorBias dt < 1)
    (hr : g.ratchet ≠ 0) (t₀ : Tick K) (ticks : List (Tick K))
    (h : EveryStep M sc (fun w t w' => Plain sc dt ia ib w t w' ∧ 0 < behind g.ratchet g.angle ia ib w' ∧ ∀ g', JoinedBy w' ia ib (.ratchet g') → |g'.jAcc| < g'.maxForce * dt) w (t₀ :: ticks)) :
    ∃ w' g', w.run M sc ((t₀ :: ticks).map .step) = some w' ∧ JoinedBy w' ia ib (.ratchet g') ∧ g'.angle = g.angle ∧
      behind g.ratchet g.angle ia ib w' ≤ (nearer (M.pow g.errorBias dt) (g.maxBias * dt))^[ticks.length] (behind g.ratchet g.angle ia ib (w.step M sc t₀)) := by
  have hw : RatchetRuns ia ib g ((w.bodies ia).iInv + (w.bodies ib).iInv) g.angle w := ⟨⟨g, hj, ⟨rfl, rfl, rfl⟩, rfl⟩, rfl⟩
  have stp : ∀ {k : K} {w : World K} {t : Tick K}, 0 < k → RatchetRuns ia ib g k g.angle w → Plain sc dt ia ib w t (w.step M sc t) → 0 < behind g.ratchet g.angle ia ib (w.step M sc t) →
      (∀ g', JoinedBy (w.step M sc t) ia ib (.ratchet g') → |g'.jAcc| < g'.maxForce * dt) →
      RatchetRuns ia ib g k g.angle (w.step M sc t) ∧ behind g.ratchet g.angle ia ib (w.step M sc t) = behind g.ratchet g.angle ia ib w + backing g.ratchet ia ib w * dt ∧
      backing g.ratchet ia ib (w.step M sc t) * dt ≤ -upTo (g.maxBias * dt) ((1 - M.pow g.errorBias dt) * behind g.ratchet g.angle ia ib (w.step M sc t)) := by
    intro k w t hk hw hpl hb hi
    obtain ⟨held', hw', hmove, -, hheld⟩ := ratchet_runs hn h0 hk.ne' hF hB hp hr hw hpl
    obtain ⟨rfl, hback⟩ := hheld hb
    exact ⟨hw', hmove, hback hk hi⟩
  obtain ⟨⟨p0, b0, i0⟩, hrest⟩ := h
  obtain ⟨r0, -, s0⟩ := stp hk hw p0 b0 i0
  rw [List.map_cons]
  show ∃ w' g', (w.step M sc t₀).run M sc (ticks.map .step) = some w' ∧ _
  generalize (w.bodies ia).iInv + (w.bodies ib).iInv = k at *
  generalize w.step M sc t₀ = w1 at *
  clear p0 i0 hj hw w
  have mono : ∀ (n : Nat) {x y : K}, x ≤ y → (nearer (M.pow g.errorBias dt) (g.maxBias * dt))^[n] x ≤ (nearer (M.pow g.errorBias dt) (g.maxBias * dt))^[n] y := by
    intro n
    induction n with
    | zero => intro x y h; exact h
    | succ n ih => intro x y h; rw [Function.iterate_succ_apply, Function.iterate_succ_apply]; exact ih (nearer_mono hp0 hp.le (mul_nonneg hB.le h0.le) h)
  induction ticks generalizing w1 with
  | nil =>
    obtain ⟨⟨g', j1, -, e⟩, -⟩ := r0
    exact ⟨w1, g', rfl, j1, e, le_rfl⟩
  | cons t ts ih =>
    obtain ⟨⟨p1, b1, i1⟩, hr'⟩ := hrest
    obtain ⟨r1, e1, s1⟩ := stp hk r0 p1 b1 i1
    obtain ⟨w', g', q1, q2, q3, q4⟩ := ih _ hr' b1 s1 r1
    refine ⟨w', g', q1, q2, q3, q4.trans ?_⟩
    rw [List.length_cons, Function.iterate_succ_apply]
    refine mono _ ?_
    rw [e1]
    unfold nearer
    linarith

/-! ## Examples -/

theorem floors_toy : Floors toyMth := ⟨fun x => ⟨⌊x⌋, rfl⟩, fun x => Int.floor_le x, fun x => Int.lt_floor_add_one x⟩
theorem floors_real : Floors realMth := ⟨fun x => ⟨⌊x⌋, rfl⟩, fun x => Int.floor_le x, fun x => Int.lt_floor_add_one x⟩

def exPawl (ls : List (Link (Joint ℚ))) : ℚ × ℚ × ℚ :=
  match ls with
  | [⟨_, _, .ratchet g⟩] => (g.jAcc, g.maxForce, g.angle)
  | _ => (0, 0, 0)

/-- **C137.** A new ratchet gives some of the angle back: made at the angle 2 with teeth at 5/4 and 9/4, it holds 5/4 after a step in which nothing moves. -/
theorem C137_gives_back : (RatchetJoint.new toyMth 1000 (exSpinner 0) (exSpinner 1) (1/4) 1).angle = 2 ∧
    ((RatchetJoint.new toyMth 1000 (exSpinner 0) (exSpinner 1) (1/4) 1).preStep toyMth (exSpinner 0) (exSpinner 1) (1/4)).angle = 5/4 := by decide +kernel

/-- The bodies turn back from 2 to 1, and the ratchet holds 3/2. -/
def exCaught : RatchetJoint ℚ := ⟨⟨1000, 1/2, 100⟩, 3/2, 0, 1/2, 0, 0, 0⟩
/-- The bodies turn the way they may, and the ratchet takes the next tooth. -/
def exLoose : RatchetJoint ℚ := ⟨⟨1000, 1/2, 100⟩, 9/4, 1/4, -1/2, 0, 0, 0⟩

example : JoinedBy (exCoupled (.ratchet exLoose)) 0 1 (.ratchet exLoose) ∧ inTeeth exLoose.phase exLoose.ratchet exLoose.angle = ((-4 : ℤ) : ℚ) ∧
    EveryStep toyMth exBalls3 (fun w t w' => Plain exBalls3 (1/4) 0 1 w t w') (exCoupled (.ratchet exLoose)) [exSpinTick, exSpinTick] ∧
    seenTeeth toyMth exBalls3 exLoose.phase exLoose.ratchet 0 1 (exCoupled (.ratchet exLoose)) [exSpinTick, exSpinTick] = [-3/2, -1/4] ∧
    (exPawl (((exCoupled (.ratchet exLoose)).step toyMth exBalls3 exSpinTick).step toyMth exBalls3 exSpinTick).joints).2.2 = 3/4 := by
  refine ⟨⟨by decide, rfl⟩, by decide +kernel, ⟨exPlain (by decide +kernel) (by decide +kernel) (by decide +kernel), exPlain (by decide +kernel) (by decide +kernel) (by decide +kernel), trivial⟩, by decide +kernel, by decide +kernel⟩

example : JoinedBy (exCoupled (.ratchet exCaught)) 0 1 (.ratchet exCaught) ∧ behind exCaught.ratchet exCaught.angle 0 1 (exCoupled (.ratchet exCaught)) ≤ 0 ∧
    EveryStep toyMth exBalls3 (fun w t w' => Plain exBalls3 (1/4) 0 1 w t w' ∧ 0 < behind exCaught.ratchet exCaught.angle 0 1 w' ∧
      (∀ g', JoinedBy w 0 1 (.ratchet g') → behind exCaught.ratchet g'.angle 0 1 w ≤ 0 → backing exCaught.ratchet 0 1 w * (1/4) ≤ 1) ∧
      ∀ g', JoinedBy w' 0 1 (.ratchet g') → |g'.jAcc| < g'.maxForce * (1/4)) (exCoupled (.ratchet exCaught)) [exSpinTick, exSpinTick] ∧
    (let w1 := (exCoupled (.ratchet exCaught)).step toyMth exBalls3 exSpinTick
     behind exCaught.ratchet exCaught.angle 0 1 w1 = 1/2 ∧ behind exCaught.ratchet exCaught.angle 0 1 (w1.step toyMth exBalls3 exSpinTick) = 1/4) := by
  refine ⟨⟨by decide, rfl⟩, by decide +kernel, ⟨⟨exPlain (by decide +kernel) (by decide +kernel) (by decide +kernel), by decide +kernel, fun _ _ _ => by decide +kernel, fun g' h => ?_⟩,
    ⟨exPlain (by decide +kernel) (by decide +kernel) (by decide +kernel), by decide +kernel, fun _ _ _ => by decide +kernel, fun g' h => ?_⟩, trivial⟩, by decide +kernel⟩ <;>
  · have e : g'.jAcc = _ := congrArg (fun l => (exPawl l).1) h.joint.symm
    have f : g'.maxForce = _ := congrArg (fun l => (exPawl l).2.1) h.joint.symm
    rw [e, f]
    decide +kernel

end Cm
