import Verif.Props.Sunk
import Verif.Props.Energy
/-! # C123: how balls bounce, and what becomes of their energy -/
set_option linter.unusedSectionVars false
set_option linter.unusedSimpArgs false
set_option linter.unusedVariables false

namespace Cm
open Spec
variable {K : Type} [Field K] [LinearOrder K] [IsStrictOrderedRing K]

namespace Spec
/-- Nothing changes the velocity of the body by itself: there is no gravity, no damping and no force. -/
def Unforced (M : Mth K) (par : Params K) (dt : K) (b : Body K) : Prop :=
  par.gravity = ⟨0, 0⟩ ∧ M.pow par.damping dt = 1 ∧ b.force = ⟨0, 0⟩ ∧ b.torque = 0

/-- How two bodies bounce off each other without friction, as in textbooks: `s` is the speed at which they part along `n` beforehand. -/
def Bounced (e s : K) (n : V2 K) (a b a' b' : Body K) : Prop :=
  let j := -((1 + e) * min 0 s) / (a.mInv + b.mInv)
  a'.v = ⟨a.v.x - j * a.mInv * n.x, a.v.y - j * a.mInv * n.y⟩ ∧ a'.w = a.w ∧
  b'.v = ⟨b.v.x + j * b.mInv * n.x, b.v.y + j * b.mInv * n.y⟩ ∧ b'.w = b.w ∧
  energy2 a' + energy2 b' = energy2 a + energy2 b - (1 - e ^ 2) * (min 0 s) ^ 2 / (a.mInv + b.mInv)

/-- The surfaces of two shapes do not move along like those of conveyor belts, or both do so equally. -/
def SameBelt (sc : Scene K) (i j : Nat) : Prop := (sc.figs i).surface.velocity = (sc.figs j).surface.velocity

/-- What C123 says of the collision of the shapes `i` and `j`, whose bodies part at the speed `s` along `n` beforehand. -/
def Bounce (sc : Scene K) (w w' : World K) (i j : Nat) (n : V2 K) (s : K) : Prop :=
  let e := (sc.figs i).surface.elasticity * (sc.figs j).surface.elasticity
  let a := w.bodies (sc.figs i).body
  let b := w.bodies (sc.figs j).body
  let a' := w'.bodies (sc.figs i).body
  let b' := w'.bodies (sc.figs j).body
  (0 ≤ e → e ≤ 1 → SameBelt sc i j → energy2 a' + energy2 b' ≤ energy2 a + energy2 b) ∧
  (0 ≤ e → (sc.figs i).surface.friction * (sc.figs j).surface.friction = 0 → Bounced e s n a b a' b')
end Spec

theorem coast_free {M : Mth K} {par : Params K} {dt : K} {b : Body K} (h : Unforced M par dt b) (dyn : List Nat) (k : Nat) : coast M par dyn dt k b = b := by
  obtain ⟨h1, h2, h3, h4⟩ := h
  unfold coast
  split
  · have hv : (⟨b.v.x * M.pow par.damping dt + (par.gravity.x + b.force.x * b.mInv) * dt, b.v.y * M.pow par.damping dt + (par.gravity.y + b.force.y * b.mInv) * dt⟩ : V2 K) = b.v := by
      rw [h1, h2, h3]; apply V2.ext <;> dsimp only <;> ring
    have hw : b.w * M.pow par.damping dt + b.torque * b.iInv * dt = b.w := by rw [h2, h4]; ring
    rw [hv, hw]
  · rfl

/-- The work an impulse does on a body is the impulse times the mean velocity of the point it acts on. -/
theorem kick_energy {b b' : Body K} (hs : Settled b) (hm : b'.m = b.m) (hi : b'.i = b.i) {r j : V2 K} (h : Kicked b r j b') :
    energy2 b' = energy2 b + (j.x * (b.v.x - b.w * r.y + (b'.v.x - b'.w * r.y)) + j.y * (b.v.y + b.w * r.x + (b'.v.y + b'.w * r.x))) := by
  obtain ⟨-, -, h1, h2⟩ := hs
  obtain ⟨e1, e2⟩ := h
  have lin : b.m * ((b.v.x + j.x * b.mInv) ^ 2 + (b.v.y + j.y * b.mInv) ^ 2) = b.m * (b.v.x ^ 2 + b.v.y ^ 2) + (j.x * (b.v.x + (b.v.x + j.x * b.mInv)) + j.y * (b.v.y + (b.v.y + j.y * b.mInv))) := by
    rcases h1 with h1 | ⟨h1, h1'⟩
    · unfold FiniteMass at h1
      linear_combination (2 * j.x * b.v.x + 2 * j.y * b.v.y + (j.x ^ 2 + j.y ^ 2) * b.mInv) * h1
    · rw [h1, h1']; simp [V2.zero]
  have ang : ∀ q : K, b.i * (b.w + b.iInv * q) ^ 2 = b.i * b.w ^ 2 + q * (b.w + (b.w + b.iInv * q)) := by
    intro q
    rcases h2 with h2 | ⟨h2, h2'⟩
    · unfold FiniteMoment at h2
      linear_combination (2 * b.w * q + q ^ 2 * b.iInv) * h2
    · rw [h2, h2']; simp
  unfold energy2
  rw [hm, hi, e1, e2]
  dsimp only
  rw [lin, ang]
  ring

/-- The energy balance of a collision. -/
theorem impact_energy {a b a' b' : Body K} (ha : Settled a) (hb : Settled b) (hma : a'.m = a.m ∧ a'.i = a.i) (hmb : b'.m = b.m ∧ b'.i = b.i) {n r1 r2 : V2 K} {jn jt : K}
    (h1 : Kicked a r1 ⟨-(jn * n.x - jt * n.y), -(jn * n.y + jt * n.x)⟩ a') (h2 : Kicked b r2 ⟨jn * n.x - jt * n.y, jn * n.y + jt * n.x⟩ b') :
    energy2 a' + energy2 b' = energy2 a + energy2 b + jn * (speed a b r1 r2 n + speed a' b' r1 r2 n) + jt * (speed a b r1 r2 n.perp + speed a' b' r1 r2 n.perp) := by
  rw [kick_energy ha hma.1 hma.2 h1, kick_energy hb hmb.1 hmb.2 h2]
  simp only [speed, V2.perp]
  ring

/-- What the impulses do to the speed along the normal, and across it. -/
theorem impact_speed {a b a' b' : Body K} {n r1 r2 : V2 K} (hn : n.x ^ 2 + n.y ^ 2 = 1) (hc : Central a b r1 r2 n) {jn jt : K}
    (h1 : Kicked a r1 ⟨-(jn * n.x - jt * n.y), -(jn * n.y + jt * n.x)⟩ a') (h2 : Kicked b r2 ⟨jn * n.x - jt * n.y, jn * n.y + jt * n.x⟩ b') :
    speed a' b' r1 r2 n = speed a b r1 r2 n + jn * (a.mInv + b.mInv) ∧
    speed a' b' r1 r2 n.perp = speed a b r1 r2 n.perp + jt * (a.mInv + b.mInv + a.iInv * (r1.x * n.x + r1.y * n.y) ^ 2 + b.iInv * (r2.x * n.x + r2.y * n.y) ^ 2) := by
  obtain ⟨c1, c2⟩ := hc
  obtain ⟨e1, e2⟩ := h1
  obtain ⟨e3, e4⟩ := h2
  simp only [speed, V2.perp, e1, e2, e3, e4]
  constructor
  · linear_combination (jn * (a.mInv + b.mInv)) * hn
      + ((jn * (r1.x * n.y - r1.y * n.x) + jt * (r1.x * n.x + r1.y * n.y))) * c1
      + ((jn * (r2.x * n.y - r2.y * n.x) + jt * (r2.x * n.x + r2.y * n.y))) * c2
  · linear_combination (jt * (a.mInv + b.mInv)) * hn
      + (jn * (r1.x * n.x + r1.y * n.y)) * c1 + (jn * (r2.x * n.x + r2.y * n.y)) * c2

/-- The bounce from the laws. -/
theorem bounce_laws {a b a' b' : Body K} (ha : Settled a) (hb : Settled b) (hk : 0 < a.mInv + b.mInv) (hma : a'.m = a.m ∧ a'.i = a.i) (hmb : b'.m = b.m ∧ b'.i = b.i)
    {n r1 r2 : V2 K} (hn : n.x ^ 2 + n.y ^ 2 = 1) (hc : Central a b r1 r2 n) {jn jt e u sv : K} (he : 0 ≤ e)
    (h1 : Kicked a r1 ⟨-(jn * n.x - jt * n.y), -(jn * n.y + jt * n.x)⟩ a') (h2 : Kicked b r2 ⟨jn * n.x - jt * n.y, jn * n.y + jt * n.x⟩ b')
    (hl : NewtonCoulomb u jn jt (-(e * speed a b r1 r2 n)) (speed a' b' r1 r2 n) (speed a' b' r1 r2 n.perp + sv)) :
    (e ≤ 1 → sv = 0 → energy2 a' + energy2 b' ≤ energy2 a + energy2 b) ∧ (u = 0 → Bounced e (speed a b r1 r2 n) n a b a' b') := by
  obtain ⟨s1, s2⟩ := impact_speed hn hc h1 h2
  have en := impact_energy ha hb hma hmb h1 h2
  have hkt : 0 < a.mInv + b.mInv + a.iInv * (r1.x * n.x + r1.y * n.y) ^ 2 + b.iInv * (r2.x * n.x + r2.y * n.y) ^ 2 := by
    have := mul_nonneg ha.2.1 (sq_nonneg (r1.x * n.x + r1.y * n.y))
    have := mul_nonneg hb.2.1 (sq_nonneg (r2.x * n.x + r2.y * n.y))
    linarith
  generalize a.mInv + b.mInv + a.iInv * (r1.x * n.x + r1.y * n.y) ^ 2 + b.iInv * (r2.x * n.x + r2.y * n.y) ^ 2 = kt at s2 hkt
  -- the normal impulse
  have hj : jn = -((1 + e) * min 0 (speed a b r1 r2 n)) / (a.mInv + b.mInv) := by
    rw [eq_div_iff hk.ne']
    rcases hl.push.lt_or_eq with hp | hp
    · have r := hl.rebound hp
      rw [s1] at r
      have q : jn * (a.mInv + b.mInv) = -((1 + e) * speed a b r1 r2 n) := by linear_combination r
      have : speed a b r1 r2 n ≤ 0 := by
        by_contra hcon
        have p1 := mul_pos hp hk
        have p2 := mul_pos (by linarith : (0 : K) < 1 + e) (not_le.1 hcon)
        linarith
      rw [min_eq_right this, q]
    · have r := hl.part hp.symm
      rw [s1, ← hp] at r
      have : 0 ≤ speed a b r1 r2 n := by
        by_contra hcon
        have := mul_pos (by linarith : (0 : K) < 1 + e) (neg_pos.2 (not_le.1 hcon))
        linarith
      rw [min_eq_left this, ← hp]; ring
  generalize hs : speed a b r1 r2 n = s at *
  have hjm : jn * (a.mInv + b.mInv) = -((1 + e) * min 0 s) := by rw [hj, div_mul_cancel₀ _ hk.ne']
  -- the work along the normal
  have wn : jn * (s + speed a' b' r1 r2 n) = -((1 - e ^ 2) * (min 0 s) ^ 2 / (a.mInv + b.mInv)) := by
    rw [s1, hjm]
    rcases le_total s 0 with h | h
    · rw [min_eq_right h] at hj ⊢
      rw [hj]; ring
    · rw [min_eq_left h] at hj ⊢
      rw [hj]; simp
  refine ⟨fun he1 hsv => ?_, fun hu => ?_⟩
  · have w1 : jn * (s + speed a' b' r1 r2 n) ≤ 0 := by
      rw [wn, neg_nonpos]
      refine div_nonneg (mul_nonneg ?_ (sq_nonneg _)) hk.le
      nlinarith
    have w2 : jt * (speed a b r1 r2 n.perp + speed a' b' r1 r2 n.perp) ≤ 0 := by
      have hr := hl.right
      have hle := hl.left
      have hcone := hl.cone
      rw [hsv, add_zero] at hr hle
      have hun : 0 ≤ u * jn := (abs_nonneg jt).trans hcone
      have e1 : speed a b r1 r2 n.perp + speed a' b' r1 r2 n.perp = 2 * speed a' b' r1 r2 n.perp - jt * kt := by rw [s2]; ring
      rw [e1]
      have hq : 0 ≤ jt * jt * kt := mul_nonneg (mul_self_nonneg _) hkt.le
      have hx : jt * speed a' b' r1 r2 n.perp ≤ 0 := by
        rcases lt_trichotomy 0 (speed a' b' r1 r2 n.perp) with h | h | h
        · rw [hr h]; exact mul_nonpos_of_nonpos_of_nonneg (neg_nonpos.2 hun) h.le
        · rw [← h, mul_zero]
        · rw [hle h]; exact mul_nonpos_of_nonneg_of_nonpos hun h.le
      linarith
    linarith
  · have ht : jt = 0 := by
      have := hl.cone
      rw [hu, zero_mul] at this
      exact abs_nonpos_iff.1 this
    subst ht
    obtain ⟨c1, c2⟩ := hc
    obtain ⟨e1, e2⟩ := h1
    obtain ⟨e3, e4⟩ := h2
    refine ⟨?_, ?_, ?_, ?_, ?_⟩
    · rw [e1, ← hj]; apply V2.ext <;> dsimp only <;> ring
    · rw [e2]; linear_combination -jn * c1
    · rw [e3, ← hj]; apply V2.ext <;> dsimp only <;> ring
    · rw [e4]; linear_combination jn * c2
    · rw [en, wn]; ring

/-- A step changes neither masses nor moments. -/
theorem step_weights (M : Mth K) (sc : Scene K) (inp : Tick K) (w : World K) (h0 : inp.dt ≠ 0) (k : Nat) :
    ((w.step M sc inp).bodies k).m = (w.bodies k).m ∧ ((w.step M sc inp).bodies k).i = (w.bodies k).i := by
  have h := step_same M sc inp w h0 k
  constructor
  · refine (congrArg Body.m h).trans ?_
    dsimp only
    split
    · unfold Body.updateVelocity; split <;> rfl
    · rfl
  · refine (congrArg Body.i h).trans ?_
    dsimp only
    split
    · unfold Body.updateVelocity; split <;> rfl
    · rfl

theorem bounce_impact {M : Mth K} {sc : Scene K} {inp : Tick K} {w : World K} (h0 : inp.dt ≠ 0) {i j : Nat} {n r1 r2 : V2 K} (hn : n.x ^ 2 + n.y ^ 2 = 1)
    (him : Impact M sc inp w (w.step M sc inp) i j n r1 r2) (hkn : Known w inp.dt i j)
    (hmass : Movable (w.bodies (sc.figs i).body) (w.bodies (sc.figs j).body)) (hc : Central (w.bodies (sc.figs i).body) (w.bodies (sc.figs j).body) r1 r2 n)
    (si : Settled (w.bodies (sc.figs i).body)) (sj : Settled (w.bodies (sc.figs j).body))
    (ui : Unforced M sc.par inp.dt (w.bodies (sc.figs i).body)) (uj : Unforced M sc.par inp.dt (w.bodies (sc.figs j).body)) :
    Bounce sc w (w.step M sc inp) i j n (speed (w.bodies (sc.figs i).body) (w.bodies (sc.figs j).body) r1 r2 n) := by
  obtain ⟨c, -, -, rfl, rfl, hlaw, hex, -⟩ := him
  obtain ⟨k1, k2⟩ := hex hkn
  rw [coast_free ui] at k1
  rw [coast_free uj] at k2
  have key := fun he => bounce_laws si sj hmass.2.2.2.2 (step_weights M sc inp w h0 _) (step_weights M sc inp w h0 _) hn hc (e := (sc.figs i).surface.elasticity * (sc.figs j).surface.elasticity) he k1 k2 hlaw
  refine ⟨fun he he1 hb => (key he).1 he1 ?_, fun he hu => (key he).2 hu⟩
  unfold SameBelt at hb
  rw [hb]; simp

/-- **C123.** Two balls, no gravity, damping or forces. After any legal history of the whole simulation, a step in which they collide with each other and with nothing else does not
add to their kinetic energy, whatever the friction, and without friction they bounce exactly as in textbooks, along the line of their centres: momentum is exchanged, and the part
`1 - e ^ 2` of the energy of the approach is lost. -/
theorem C123_balls {M : Mth K} (hM : M.Lawful) {sc : Scene K} {fig : Nat → Figure K} (hm : Made M sc fig) (hper : 1 ≤ sc.persistence) (hit : sc.par.iterations ≠ 0) (bodies : Nat → Body K)
    (shapes : Nat → CShape K) (hb : ∀ k, Rigid (bodies k).tr) (hs : ∀ i, (shapes i).bb.L ≤ (shapes i).bb.R ∧ (shapes i).bb.B ≤ (shapes i).bb.T)
    (ops : List (WorldOp K)) (inp : Tick K) (hl : WLegal sc (fun _ => none) (ops ++ [.step inp])) (h0 : inp.dt ≠ 0) :
    ∃ w, (World.init bodies shapes).run M sc ops = some w ∧ ∀ (i j : Nat) (ρ ρ' : K), (i, j) ∈ (w.step M sc inp).active →
      rosterAfter (fun _ => none) ops i ≠ none → rosterAfter (fun _ => none) ops j ≠ none →
      let a := w.bodies (sc.figs i).body
      let b := w.bodies (sc.figs j).body
      fig i = .ball ρ a.cog → fig j = .ball ρ' b.cog → Centred a → Centred b → Movable a b → Settled a → Settled b →
      Unforced M sc.par inp.dt a → Unforced M sc.par inp.dt b → 0 ≤ (sc.figs i).surface.friction * (sc.figs j).surface.friction →
      Undisturbed sc w (w.step M sc inp) i j → Known w inp.dt i j →
      ∃ (n : V2 K) (d : K), n.x ^ 2 + n.y ^ 2 = 1 ∧ 0 ≤ d ∧ d < ρ + ρ' ∧
        ((w.step M sc inp).bodies (sc.figs j).body).p = ⟨((w.step M sc inp).bodies (sc.figs i).body).p.x + d * n.x, ((w.step M sc inp).bodies (sc.figs i).body).p.y + d * n.y⟩ ∧
        Bounce sc w (w.step M sc inp) i j n ((b.v.x - a.v.x) * n.x + (b.v.y - a.v.y) * n.y) := by
  obtain ⟨w, e, h⟩ := C120_balls hM hm hper hit bodies shapes hb hs ops inp hl h0
  refine ⟨w, e, ?_⟩
  intro i j ρ ρ' hij ri rj a b fi fj ci cj hmass si sj ui uj hfr hno hkn
  obtain ⟨n, d, hn, d0, d1, hp, him⟩ := h i j ρ ρ' hij ri rj fi fj ci cj hmass hfr hno
  refine ⟨n, d, hn, d0, d1, hp, ?_⟩
  have := bounce_impact h0 hn him hkn hmass ⟨by dsimp only; ring, by dsimp only; ring⟩ si sj ui uj
  have es : speed a b ⟨ρ * n.x, ρ * n.y⟩ ⟨-(ρ' * n.x), -(ρ' * n.y)⟩ n = (b.v.x - a.v.x) * n.x + (b.v.y - a.v.y) * n.y := by
    simp only [speed]; ring
  rw [← es]; exact this

/-- **C123.** The same for a ball and a rod on a body that does not move, the ground: the ball does not gain energy, and without friction it is thrown back like light from a mirror,
with `e` times the speed along the normal. -/
theorem C123_ground {M : Mth K} (hM : M.Lawful) {sc : Scene K} {fig : Nat → Figure K} (hm : Made M sc fig) (hper : 1 ≤ sc.persistence) (hit : sc.par.iterations ≠ 0) (bodies : Nat → Body K)
    (shapes : Nat → CShape K) (hb : ∀ k, Rigid (bodies k).tr) (hs : ∀ i, (shapes i).bb.L ≤ (shapes i).bb.R ∧ (shapes i).bb.B ≤ (shapes i).bb.T)
    (ops : List (WorldOp K)) (inp : Tick K) (hl : WLegal sc (fun _ => none) (ops ++ [.step inp])) (h0 : inp.dt ≠ 0) :
    ∃ w, (World.init bodies shapes).run M sc ops = some w ∧ ∀ (i j : Nat) (ρ r : K) (x y : V2 K), (i, j) ∈ (w.step M sc inp).active ∨ (j, i) ∈ (w.step M sc inp).active →
      rosterAfter (fun _ => none) ops i ≠ none → rosterAfter (fun _ => none) ops j ≠ none →
      let a := w.bodies (sc.figs i).body
      let b := w.bodies (sc.figs j).body
      fig i = .ball ρ a.cog → fig j = .rod x y r → Centred a → FiniteMass a → 0 < a.mInv → FiniteMoment a ∨ (a.iInv = 0 ∧ a.w = 0) → 0 ≤ a.iInv → Immovable b → b.v = ⟨0, 0⟩ → b.w = 0 →
      Unforced M sc.par inp.dt a → Unforced M sc.par inp.dt b → 0 ≤ (sc.figs i).surface.friction * (sc.figs j).surface.friction →
      Undisturbed sc w (w.step M sc inp) i j → Known w inp.dt i j →
      let a' := (w.step M sc inp).bodies (sc.figs i).body
      let e := (sc.figs i).surface.elasticity * (sc.figs j).surface.elasticity
      ∃ (n : V2 K) (d t : K), n.x ^ 2 + n.y ^ 2 = 1 ∧ 0 ≤ d ∧ d < ρ + r ∧ 0 ≤ t ∧ t ≤ 1 ∧
        ((w.step M sc inp).bodies (sc.figs j).body).tr.apply ⟨x.x + (y.x - x.x) * t, x.y + (y.y - x.y) * t⟩ = ⟨a'.p.x + d * n.x, a'.p.y + d * n.y⟩ ∧
        (0 ≤ e → e ≤ 1 → SameBelt sc i j → energy2 a' ≤ energy2 a) ∧
        (0 ≤ e → (sc.figs i).surface.friction * (sc.figs j).surface.friction = 0 →
          let s := max 0 (a.v.x * n.x + a.v.y * n.y)
          a'.v = ⟨a.v.x - (1 + e) * s * n.x, a.v.y - (1 + e) * s * n.y⟩ ∧ a'.w = a.w ∧ energy2 a' = energy2 a - (1 - e ^ 2) * a.m * s ^ 2) := by
  obtain ⟨w, e, h⟩ := C120_ground hM hm hper hit bodies shapes hb hs ops inp hl h0
  refine ⟨w, e, ?_⟩
  intro i j ρ r x y hij ri rj a b fi fj ci fm hpos fi' hi0 him0 hv hw ui uj hfr hno hkn a' e'
  have hmass : Movable a b := ⟨hpos.le, him0.1.ge, hi0, him0.2.ge, by have : b.mInv = 0 := him0.1; rw [this]; linarith⟩
  have sa : Settled a := ⟨hpos.le, hi0, .inl fm, fi'⟩
  have sb : Settled b := ⟨him0.1.ge, him0.2.ge, .inr ⟨him0.1, hv⟩, .inr ⟨him0.2, hw⟩⟩
  obtain ⟨n, d, t, hn, d0, d1, t0, t1, hp, him⟩ := h i j ρ r x y hij ri rj fi fj ci him0.2 hmass hfr hno
  refine ⟨n, d, t, hn, d0, d1, t0, t1, hp, ?_⟩
  have hB := bounce_impact h0 hn him hkn hmass ⟨by dsimp only; ring, by rw [him0.2, zero_mul]⟩ sa sb ui uj
  -- the ground keeps still
  have hg : energy2 ((w.step M sc inp).bodies (sc.figs j).body) = energy2 b := by
    obtain ⟨c, -, -, -, -, -, hex, -⟩ := him
    obtain ⟨-, k2⟩ := hex hkn
    rw [coast_free uj] at k2
    obtain ⟨m1, m2⟩ := step_weights M sc inp w h0 (sc.figs j).body
    have e1 : ((w.step M sc inp).bodies (sc.figs j).body).v = b.v := by
      rw [k2.1]; have : (w.bodies (sc.figs j).body).mInv = 0 := him0.1
      rw [this]; apply V2.ext <;> dsimp only <;> simp [b]
    have e2 : ((w.step M sc inp).bodies (sc.figs j).body).w = b.w := by
      rw [k2.2]; have : (w.bodies (sc.figs j).body).iInv = 0 := him0.2
      rw [this, zero_mul, add_zero]
    unfold energy2
    rw [e1, e2, m1, m2]
  obtain ⟨b1, b2⟩ := hB
  rw [hg] at b1
  refine ⟨fun p q z => by have := b1 p q z; exact le_of_add_le_add_right this, fun p q => ?_⟩
  obtain ⟨v1, w1, -, -, en⟩ := b2 p q
  rw [hg] at en
  have es : speed (w.bodies (sc.figs i).body) (w.bodies (sc.figs j).body) ⟨ρ * n.x, ρ * n.y⟩
      ⟨(((w.step M sc inp).bodies (sc.figs j).body).tr.apply ⟨x.x + (y.x - x.x) * t, x.y + (y.y - x.y) * t⟩).x - r * n.x - ((w.step M sc inp).bodies (sc.figs j).body).p.x,
       (((w.step M sc inp).bodies (sc.figs j).body).tr.apply ⟨x.x + (y.x - x.x) * t, x.y + (y.y - x.y) * t⟩).y - r * n.y - ((w.step M sc inp).bodies (sc.figs j).body).p.y⟩ n =
      -(a.v.x * n.x + a.v.y * n.y) := by
    have e1 : (w.bodies (sc.figs j).body).v = ⟨0, 0⟩ := hv
    have e2 : (w.bodies (sc.figs j).body).w = 0 := hw
    simp only [speed, e1, e2, a]; ring
  rw [es] at v1 en
  have hmin : min 0 (-(a.v.x * n.x + a.v.y * n.y)) = -max 0 (a.v.x * n.x + a.v.y * n.y) := by
    rw [← min_neg_neg, neg_zero]
  rw [hmin] at v1 en
  have hb0 : (w.bodies (sc.figs j).body).mInv = 0 := him0.1
  rw [hb0, add_zero] at v1 en
  have hmm : a.m * a.mInv = 1 := fm
  have hne : a.mInv ≠ 0 := hpos.ne'
  intro s
  refine ⟨?_, w1, ?_⟩
  · refine v1.trans ?_
    have : ∀ q : K, -((1 + e') * -s) / a.mInv * a.mInv * q = (1 + e') * s * q := by intro q; rw [div_mul_cancel₀ _ hne]; ring
    exact V2.ext (congrArg (a.v.x - ·) (this n.x)) (congrArg (a.v.y - ·) (this n.y))
  · have h2 : (1 - e' ^ 2) * (-s) ^ 2 / a.mInv = (1 - e' ^ 2) * a.m * s ^ 2 := by
      rw [div_eq_iff hne]; linear_combination -(1 - e' ^ 2) * s ^ 2 * hmm
    have h3 := en
    change energy2 a' + energy2 b = energy2 a + energy2 b - (1 - e' ^ 2) * (-s) ^ 2 / a.mInv at h3
    rw [h2] at h3
    linear_combination h3

/-! ## Examples -/

/-- The balls and the floor of the examples of C120, in weightlessness, smooth and of moderate elasticity. -/
noncomputable def exFloating (rod : Bool) : Scene ℝ :=
  ⟨fun i => ⟨(exThrownFig rod i).made realMth, i % 2, ⟨0#64, 1#64, 1#64⟩, ⟨1/2, 0, ⟨0, 0⟩⟩, false, BitVec.ofNat 64 i⟩, ⟨100000, 1/10, 1/2, 1, ⟨0, 0⟩, 2⟩, 1/1000, 3,
    fun _ _ => false⟩

theorem exFloating_meet (rod : Bool) (shapes : Nat → CShape ℝ) (hs : ∀ i, (shapes i).bb.L ≤ (shapes i).bb.R ∧ (shapes i).bb.B ≤ (shapes i).bb.T) (t : Tick ℝ)
    (ht : t = ⟨1/60, if rod then [0] else [0, 1], if rod then [0] else [0, 1], fun _ _ => true, fun _ _ => true⟩) :
    Made realMth (exFloating rod) (exThrownFig rod) ∧ (∀ k, Rigid (exThrownBodies rod k).tr) ∧ WLegal (exFloating rod) (fun _ => none) (twoOps (!rod) ++ [.step t]) ∧
    ∃ w, (World.init (exThrownBodies rod) shapes).run realMth (exFloating rod) (twoOps (!rod)) = some w ∧ w.bodies = exThrownBodies rod ∧ w.cache = [] ∧ w.joints = [] ∧
      ∃ p, (w.step realMth (exFloating rod) t).active = [p] ∧ SameTwo p (0, 1) ∧ Undisturbed (exFloating rod) w (w.step realMth (exFloating rod) t) p.1 p.2 := by
  have hc : realMth.cos 0 = 1 ∧ realMth.sin 0 = 0 := ⟨Real.cos_zero, Real.sin_zero⟩
  have hm : Made realMth (exFloating rod) (exThrownFig rod) := by
    refine fun i => ⟨?_, rfl⟩
    unfold exThrownFig
    split
    · exact ⟨by norm_num, by norm_num [V2.mk.injEq]⟩
    · exact zero_le_one (α := ℝ)
  have hr : ∀ k, Rigid (exThrownBodies rod k).tr := by
    intro k
    unfold exThrownBodies
    split_ifs <;> norm_num [Rigid, Body.blank, Transform.identity]
  have one : (1#64 : BitVec 64).getLsbD 0 = true := by decide
  refine ⟨hm, hr, ?_⟩
  refine two_meet realMth_lawful hm (by norm_num [exFloating]) _ shapes hr hs (!rod) t (by rw [ht]; norm_num) (by rw [ht]; exact ⟨fun _ _ => rfl, fun _ _ => rfl⟩)
    (by rw [ht]; cases rod <;> rfl) (by rw [ht]; cases rod <;> simp [exFloating]) (by simp [exFloating])
    ⟨.inl rfl, ⟨0, by decide, one, one⟩, ⟨0, by decide, one, one⟩⟩ ⟨rfl, rfl⟩ (by norm_num [exFloating, exThrownBodies]) (by cases rod <;> exact ⟨trivial, trivial⟩) ?_
  rw [ht]
  cases rod
  · refine ⟨⟨0, 0⟩, ⟨0, 0⟩, rfl, rfl, ?_⟩
    have : dist2 (((SolverState.positions realMth [0, 1] (1/60) ⟨exThrownBodies false, [], []⟩).bodies 0).tr.apply ⟨0, 0⟩)
        (((SolverState.positions realMth [0, 1] (1/60) ⟨exThrownBodies false, [], []⟩).bodies 1).tr.apply ⟨0, 0⟩) < ((1 : ℝ) + 1) * (1 + 1) := by
      norm_num [SolverState.positions, exThrownBodies, Body.blank, Body.updatePosition, Body.setTransform, Body.mkTransform, Transform.transpose, Transform.apply, V2.add, V2.scale, V2.zero, hc, dist2]
    exact ⟨this.le, fun _ => this⟩
  · refine ⟨⟨0, 0⟩, At ⟨-9, -1⟩ ⟨9, -1⟩ (1/2), rfl, ⟨1/2, by norm_num, by norm_num, rfl⟩, ?_⟩
    have : dist2 (((SolverState.positions realMth [0] (1/60) ⟨exThrownBodies true, [], []⟩).bodies 0).tr.apply ⟨0, 0⟩)
        (((SolverState.positions realMth [0] (1/60) ⟨exThrownBodies true, [], []⟩).bodies 1).tr.apply (At ⟨-9, -1⟩ ⟨9, -1⟩ (1/2))) < ((1 : ℝ) + 1/4) * (1 + 1/4) := by
      norm_num [SolverState.positions, exThrownBodies, Body.blank, Body.updatePosition, Body.setTransform, Body.mkTransform, Transform.transpose, Transform.apply, V2.add, V2.scale, V2.zero, hc, dist2, At,
        Transform.identity]
    exact ⟨this.le, fun _ => this⟩

/-- Nothing changes the velocities in the scene by itself. -/
theorem exFloating_unforced (rod : Bool) (dt : ℝ) (k : Nat) : Unforced realMth (exFloating rod).par dt (exThrownBodies rod k) := by
  refine ⟨rfl, Real.one_rpow dt, ?_, ?_⟩ <;> unfold exThrownBodies <;> split_ifs <;> rfl

/-- The hypotheses of `C123_balls`: a ball hits another one. -/
example (shapes : Nat → CShape ℝ) (hs : ∀ i, (shapes i).bb.L ≤ (shapes i).bb.R ∧ (shapes i).bb.B ≤ (shapes i).bb.T) (t : Tick ℝ)
    (ht : t = ⟨1/60, [0, 1], [0, 1], fun _ _ => true, fun _ _ => true⟩) :
    Made realMth (exFloating false) (exThrownFig false) ∧ (∀ k, Rigid (exThrownBodies false k).tr) ∧ WLegal (exFloating false) (fun _ => none) (twoOps true ++ [.step t]) ∧
    ∃ w, (World.init (exThrownBodies false) shapes).run realMth (exFloating false) (twoOps true) = some w ∧ ∃ i j, (i, j) ∈ (w.step realMth (exFloating false) t).active ∧
      rosterAfter (fun _ => none) (twoOps (K := ℝ) true) i ≠ none ∧ rosterAfter (fun _ => none) (twoOps (K := ℝ) true) j ≠ none ∧
      let a := w.bodies ((exFloating false).figs i).body
      let b := w.bodies ((exFloating false).figs j).body
      exThrownFig false i = .ball 1 a.cog ∧ exThrownFig false j = .ball 1 b.cog ∧ Centred a ∧ Centred b ∧ Movable a b ∧ Settled a ∧ Settled b ∧
      Unforced realMth (exFloating false).par t.dt a ∧ Unforced realMth (exFloating false).par t.dt b ∧
      0 ≤ ((exFloating false).figs i).surface.friction * ((exFloating false).figs j).surface.friction ∧ Undisturbed (exFloating false) w (w.step realMth (exFloating false) t) i j ∧ Known w t.dt i j := by
  obtain ⟨h1, h2, h3, w, e, w1, w2, w3, ⟨i, j⟩, p1, p2, p3⟩ := exFloating_meet false shapes hs t (by rw [ht]; rfl)
  refine ⟨h1, h2, h3, w, e, i, j, by rw [p1]; exact List.mem_cons_self, ?_⟩
  rw [two_roster, two_roster, w1]
  rcases p2 with h | h <;>
    (obtain ⟨rfl, rfl⟩ := Prod.mk.inj h
     refine ⟨by simp, by simp, ?_, ?_, ?_, ?_, ?_, ?_, ?_, exFloating_unforced _ _ _, exFloating_unforced _ _ _, ?_, p3, .inl (by rw [w2]; simp)⟩) <;>
    norm_num [exThrownFig, exFloating, exThrownBodies, Body.blank, V2.zero, Centred, Transform.apply, Transform.identity, Movable, Settled, FiniteMass, FiniteMoment]

/-- The hypotheses of `C123_ground`. -/
example (shapes : Nat → CShape ℝ) (hs : ∀ i, (shapes i).bb.L ≤ (shapes i).bb.R ∧ (shapes i).bb.B ≤ (shapes i).bb.T) (t : Tick ℝ)
    (ht : t = ⟨1/60, [0], [0], fun _ _ => true, fun _ _ => true⟩) :
    Made realMth (exFloating true) (exThrownFig true) ∧ (∀ k, Rigid (exThrownBodies true k).tr) ∧ WLegal (exFloating true) (fun _ => none) (twoOps false ++ [.step t]) ∧
    ∃ w, (World.init (exThrownBodies true) shapes).run realMth (exFloating true) (twoOps false) = some w ∧
      ((0, 1) ∈ (w.step realMth (exFloating true) t).active ∨ (1, 0) ∈ (w.step realMth (exFloating true) t).active) ∧
      rosterAfter (fun _ => none) (twoOps (K := ℝ) false) 0 ≠ none ∧ rosterAfter (fun _ => none) (twoOps (K := ℝ) false) 1 ≠ none ∧
      let a := w.bodies ((exFloating true).figs 0).body
      let b := w.bodies ((exFloating true).figs 1).body
      exThrownFig true 0 = .ball 1 a.cog ∧ exThrownFig true 1 = .rod ⟨-9, -1⟩ ⟨9, -1⟩ (1/4) ∧ Centred a ∧ FiniteMass a ∧ 0 < a.mInv ∧ FiniteMoment a ∧ 0 ≤ a.iInv ∧ Immovable b ∧
      b.v = ⟨0, 0⟩ ∧ b.w = 0 ∧ Unforced realMth (exFloating true).par t.dt a ∧ Unforced realMth (exFloating true).par t.dt b ∧
      0 ≤ ((exFloating true).figs 0).surface.friction * ((exFloating true).figs 1).surface.friction ∧ Undisturbed (exFloating true) w (w.step realMth (exFloating true) t) 0 1 ∧ Known w t.dt 0 1 := by
  obtain ⟨h1, h2, h3, w, e, w1, w2, w3, p, p1, p2, p3⟩ := exFloating_meet true shapes hs t (by rw [ht]; rfl)
  obtain ⟨hl1, hl2, -⟩ := (legal_append _ _ _ _).1 h3
  obtain ⟨w', e', hu, hf⟩ := run_filed realMth_lawful h1 (by norm_num [exFloating]) _ _ _ (init_upright (exFloating true) (exThrownBodies true) shapes h2 hs) ⟨List.Pairwise.nil, List.Pairwise.nil, (fun p hp => by cases hp)⟩ hl1
  obtain rfl : w = w' := Option.some.inj (e.symm.trans e')
  have r0 : rosterAfter (fun _ => none) (twoOps (K := ℝ) (!true)) 0 ≠ none := by rw [two_roster]; simp
  have r1 : rosterAfter (fun _ => none) (twoOps (K := ℝ) (!true)) 1 ≠ none := by rw [two_roster]; simp
  have f0 : exThrownFig true 0 = .ball 1 ⟨0, 0⟩ := by simp [exThrownFig]
  have f1 : exThrownFig true 1 = .rod ⟨-9, -1⟩ ⟨9, -1⟩ (1/4) := by simp [exThrownFig]
  have hp : p = (0, 1) := by
    refine p2.resolve_right fun h => ?_
    exact ball_first realMth_lawful h1 (by norm_num [exFloating]) hu hf hl2 (by rw [ht]; norm_num) r0 r1 f0 f1 (by rw [p1, h]; exact List.mem_cons_self)
  subst hp
  refine ⟨h1, h2, h3, w, e, .inl (by rw [p1]; exact List.mem_cons_self), r0, r1, ?_⟩
  rw [w1]
  refine ⟨?_, f1, ?_, ?_, ?_, ?_, ?_, ?_, ?_, ?_, exFloating_unforced _ _ _, exFloating_unforced _ _ _, ?_, p3, .inl (by rw [w2]; simp)⟩ <;>
    norm_num [exThrownFig, exFloating, exThrownBodies, Body.blank, V2.zero, Centred, Transform.apply, Transform.identity, Movable, Settled, FiniteMass, FiniteMoment, Immovable]

end Cm
