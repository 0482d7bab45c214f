import Verif.Props.Body
/-! # C130: forces and impulses at points of a body -/
set_option linter.unusedSectionVars false
set_option linter.unusedSimpArgs false
set_option linter.unusedVariables false
set_option linter.unnecessarySeqFocus false

namespace Cm
open Spec
variable {K : Type} [Field K] [LinearOrder K] [IsStrictOrderedRing K]

namespace Spec
/-- A shove: a force or an impulse, and the point where it acts, both given in the world or both in the body's own coordinates. -/
structure PointPush (K : Type) where
  inner : Bool
  f : V2 K
  q : V2 K

/-- The shove in the world's directions: what is given in the body's own is turned by the body's angle. -/
def PointPush.dir (M : Mth K) (b : Body K) (s : PointPush K) : V2 K :=
  if s.inner then ⟨M.cos b.angle * s.f.x - M.sin b.angle * s.f.y, M.sin b.angle * s.f.x + M.cos b.angle * s.f.y⟩ else s.f

/-- Where in the world it acts: a point of the body is turned about the centre of gravity, which is at `p`. -/
def PointPush.spot (M : Mth K) (b : Body K) (s : PointPush K) : V2 K :=
  if s.inner then ⟨b.p.x + (M.cos b.angle * (s.q.x - b.cog.x) - M.sin b.angle * (s.q.y - b.cog.y)), b.p.y + (M.sin b.angle * (s.q.x - b.cog.x) + M.cos b.angle * (s.q.y - b.cog.y))⟩
  else s.q

/-- All shoves together. -/
def shoveSum (M : Mth K) (b : Body K) (l : List (PointPush K)) : V2 K := ⟨(l.map fun s => (s.dir M b).x).sum, (l.map fun s => (s.dir M b).y).sum⟩
/-- Their moment about a point. -/
def shoveMoment (M : Mth K) (b : Body K) (o : V2 K) (l : List (PointPush K)) : K :=
  (l.map fun s => ((s.spot M b).x - o.x) * (s.dir M b).y - ((s.spot M b).y - o.y) * (s.dir M b).x).sum

/-- The angular momentum of a body about a point. -/
def angularMomentum (o : V2 K) (b : Body K) : K := b.i * b.w + b.m * ((b.p.x - o.x) * b.v.y - (b.p.y - o.y) * b.v.x)

/-- The kinetic energy of mechanics. -/
def trueEnergy (b : Body K) : K := b.m * (b.v.x ^ 2 + b.v.y ^ 2) / 2 + b.i * b.w ^ 2 / 2

/-- The velocity of the point of the body that is at `q`. -/
def pointSpeed (b : Body K) (q : V2 K) : V2 K := ⟨b.v.x - b.w * (q.y - b.p.y), b.v.y + b.w * (q.x - b.p.x)⟩
end Spec

/-- The public functions for impulses, one call: body.go:511-522. -/
def Body.shoveImpulse (b : Body K) (s : PointPush K) : Body K := if s.inner then b.applyImpulseAtLocal s.f s.q else b.applyImpulseAtWorld s.f s.q
/-- The public functions for forces, one call: body.go:497-509. -/
def Body.shoveForce (b : Body K) (s : PointPush K) : Body K := if s.inner then b.applyForceAtLocal s.f s.q else b.applyForceAtWorld s.f s.q

theorem placed_cog (M : Mth K) (b : Body K) (h : Placed M b) : b.tr.apply b.cog = b.p := by
  rw [h]
  simp only [Body.mkTransform, Transform.transpose, Transform.apply]
  refine V2.ext ?_ ?_ <;> simp only [] <;> ring

theorem shoveImpulse_eq (M : Mth K) (b : Body K) (h : Placed M b) (s : PointPush K) :
    b.shoveImpulse s = { b with v := ⟨b.v.x + (s.dir M b).x * b.mInv, b.v.y + (s.dir M b).y * b.mInv⟩,
                                w := b.w + b.iInv * (((s.spot M b).x - b.p.x) * (s.dir M b).y - ((s.spot M b).y - b.p.y) * (s.dir M b).x) } := by
  unfold Body.shoveImpulse PointPush.dir PointPush.spot
  split
  · unfold Body.applyImpulseAtLocal Body.applyImpulseAtWorld Body.applyImpulse
    rw [placed_cog M b h, h]
    simp only [Body.mkTransform, Transform.transpose, Transform.apply, Transform.applyVector, V2.sub, V2.cross]
    congr 1
    · ring
    · refine V2.ext ?_ ?_ <;> simp only [] <;> ring
  · unfold Body.applyImpulseAtWorld Body.applyImpulse
    rw [placed_cog M b h]
    rfl

theorem shoveForce_eq (M : Mth K) (b : Body K) (h : Placed M b) (s : PointPush K) :
    b.shoveForce s = { b with force := ⟨b.force.x + (s.dir M b).x, b.force.y + (s.dir M b).y⟩,
                              torque := b.torque + (((s.spot M b).x - b.p.x) * (s.dir M b).y - ((s.spot M b).y - b.p.y) * (s.dir M b).x) } := by
  unfold Body.shoveForce PointPush.dir PointPush.spot
  split
  · unfold Body.applyForceAtLocal Body.applyForceAtWorld
    rw [placed_cog M b h, h]
    simp only [Body.mkTransform, Transform.transpose, Transform.apply, Transform.applyVector, V2.sub, V2.cross, V2.add]
    congr 1
    · ring
    · refine V2.ext ?_ ?_ <;> simp only [] <;> ring
  · unfold Body.applyForceAtWorld
    rw [placed_cog M b h]
    rfl

/-- **C130.** Any number of impulses at points change nothing but the velocities: by the sum of the impulses over the mass, and by the sum of their moments about the centre of gravity
over the moment of inertia. -/
theorem C130_impulses (M : Mth K) (inf : K) (b : Body K) (hb : Reached M inf b) (l : List (PointPush K)) :
    l.foldl Body.shoveImpulse b = { b with v := ⟨b.v.x + (shoveSum M b l).x * b.mInv, b.v.y + (shoveSum M b l).y * b.mInv⟩, w := b.w + b.iInv * shoveMoment M b b.p l } := by
  have : ∀ (l : List (PointPush K)) (b : Body K), Placed M b →
      l.foldl Body.shoveImpulse b = { b with v := ⟨b.v.x + (shoveSum M b l).x * b.mInv, b.v.y + (shoveSum M b l).y * b.mInv⟩, w := b.w + b.iInv * shoveMoment M b b.p l } := by
    intro l
    induction l with
    | nil => intro b _; simp [shoveSum, shoveMoment]
    | cons s l ih =>
      intro b hp
      rw [List.foldl_cons, ih]
      · rw [shoveImpulse_eq M b hp]
        simp only [shoveSum, shoveMoment, PointPush.dir, PointPush.spot, List.map_cons, List.sum_cons]
        congr 1
        · ring
        · refine V2.ext ?_ ?_ <;> simp only [] <;> ring
      · rw [shoveImpulse_eq M b hp]; exact hp
  exact this l b hb.placed

/-- **C130.** Any number of forces at points change nothing but the force and the torque that wait for the next step: by their sum and by the sum of their moments. -/
theorem C130_forces (M : Mth K) (inf : K) (b : Body K) (hb : Reached M inf b) (l : List (PointPush K)) :
    l.foldl Body.shoveForce b = { b with force := ⟨b.force.x + (shoveSum M b l).x, b.force.y + (shoveSum M b l).y⟩, torque := b.torque + shoveMoment M b b.p l } := by
  have : ∀ (l : List (PointPush K)) (b : Body K), Placed M b →
      l.foldl Body.shoveForce b = { b with force := ⟨b.force.x + (shoveSum M b l).x, b.force.y + (shoveSum M b l).y⟩, torque := b.torque + shoveMoment M b b.p l } := by
    intro l
    induction l with
    | nil => intro b _; simp [shoveSum, shoveMoment]
    | cons s l ih =>
      intro b hp
      rw [List.foldl_cons, ih]
      · rw [shoveForce_eq M b hp]
        simp only [shoveSum, shoveMoment, PointPush.dir, PointPush.spot, List.map_cons, List.sum_cons]
        congr 1
        · ring
        · refine V2.ext ?_ ?_ <;> simp only [] <;> ring
      · rw [shoveForce_eq M b hp]; exact hp
  exact this l b hb.placed

/-- **C130.** A force that acts during a step is an impulse of the force times the length of the step, at the same point. -/
theorem C130_force_is_impulse (M : Mth K) (inf : K) (b : Body K) (hb : Reached M inf b) (l : List (PointPush K)) (g : V2 K) (d dt : K) (hk : b.type inf ≠ .kinematic) :
    (l.foldl Body.shoveForce b).updateVelocity inf g d dt = (l.map fun s => { s with f := s.f.scale dt }).foldl Body.shoveImpulse (b.updateVelocity inf g d dt) := by
  have hb' : Reached M inf (b.updateVelocity inf g d dt) := by
    obtain ⟨m, i, ops, rfl⟩ := hb
    exact ⟨m, i, ops ++ [.updateVelocity g d dt], by simp [Body.run, Body.step]⟩
  rw [C130_forces M inf b hb, C130_impulses M inf _ hb']
  have d1 : ∀ s : PointPush K, ({ s with f := s.f.scale dt } : PointPush K).dir M b = (s.dir M b).scale dt := by
    intro s
    unfold PointPush.dir
    split
    · refine V2.ext ?_ ?_ <;> simp only [V2.scale] <;> ring
    · rfl
  have e1 : ∀ (l : List (PointPush K)), shoveSum M b (l.map fun s => { s with f := s.f.scale dt }) = (shoveSum M b l).scale dt ∧
      shoveMoment M b b.p (l.map fun s => { s with f := s.f.scale dt }) = shoveMoment M b b.p l * dt := by
    intro l
    have s1 : ∀ s : PointPush K, ({ s with f := s.f.scale dt } : PointPush K).spot M b = s.spot M b := fun _ => rfl
    simp only [shoveSum, shoveMoment, List.map_map, Function.comp_def, d1, s1]
    simp only [V2.scale, V2.mk.injEq]
    refine ⟨⟨?_, ?_⟩, ?_⟩ <;> rw [← List.sum_map_mul_right]
    congr 1
    exact List.map_congr_left fun s _ => by ring
  have k : ∀ (b' : Body K), b'.m = b.m → b'.idle = b.idle → b'.type inf ≠ .kinematic := by
    intro b' h1 h2
    have : b'.type inf = b.type inf := by unfold Body.type; rw [h1, h2]
    rw [this]; exact hk
  have e2 : ∀ l : List (PointPush K), shoveSum M (b.updateVelocity inf g d dt) l = shoveSum M b l ∧
      shoveMoment M (b.updateVelocity inf g d dt) (b.updateVelocity inf g d dt).p l = shoveMoment M b b.p l := by
    intro l
    unfold Body.updateVelocity
    rw [if_neg hk]
    exact ⟨rfl, rfl⟩
  rw [(e2 _).1, (e2 _).2, (e1 l).1, (e1 l).2]
  have uv : ∀ b' : Body K, b'.type inf ≠ .kinematic → b'.updateVelocity inf g d dt = { b' with v := (b'.v.scale d).add ((g.add (b'.force.scale b'.mInv)).scale dt), w := b'.w * d + b'.torque * b'.iInv * dt, force := V2.zero, torque := 0 } := by
    intro b' h
    unfold Body.updateVelocity
    rw [if_neg h]
  rw [uv b hk]
  refine (uv _ (k _ ?_ ?_)).trans ?_
  · rfl
  · rfl
  simp only [V2.scale, V2.add]
  congr 1
  · ring
  · refine V2.ext ?_ ?_ <;> simp only [] <;> ring

/-- **C130.** The momentum of a body grows by the sum of the impulses, and its angular momentum about any point of the world by the sum of their moments about that point. -/
theorem C130_momentum (M : Mth K) (inf : K) (b : Body K) (hb : Reached M inf b) (hm : b.m * b.mInv = 1) (hi : b.i * b.iInv = 1) (l : List (PointPush K)) (o : V2 K) :
    let b' := l.foldl Body.shoveImpulse b
    b'.v.scale b'.m = (b.v.scale b.m).add (shoveSum M b l) ∧ angularMomentum o b' = angularMomentum o b + shoveMoment M b o l := by
  intro b'
  have e : b' = _ := C130_impulses M inf b hb l
  have sh : ∀ l : List (PointPush K), shoveMoment M b o l = shoveMoment M b b.p l + ((b.p.x - o.x) * (shoveSum M b l).y - (b.p.y - o.y) * (shoveSum M b l).x) := by
    intro l
    induction l with
    | nil => simp [shoveSum, shoveMoment]
    | cons s l ih =>
      simp only [shoveSum, shoveMoment] at ih
      simp only [shoveSum, shoveMoment, List.map_cons, List.sum_cons, ih]
      ring
  rw [e, sh]
  simp only [V2.scale, V2.add, angularMomentum]
  refine ⟨V2.ext ?_ ?_, ?_⟩
  · show (b.v.x + (shoveSum M b l).x * b.mInv) * b.m = b.v.x * b.m + (shoveSum M b l).x
    linear_combination (shoveSum M b l).x * hm
  · show (b.v.y + (shoveSum M b l).y * b.mInv) * b.m = b.v.y * b.m + (shoveSum M b l).y
    linear_combination (shoveSum M b l).y * hm
  · linear_combination shoveMoment M b b.p l * hi + ((b.p.x - o.x) * (shoveSum M b l).y - (b.p.y - o.y) * (shoveSum M b l).x) * hm

theorem kineticEnergy_eq (b : Body K) : b.kineticEnergy = 2 * trueEnergy b := by
  have e1 : (if b.v.dot b.v ≠ 0 then b.v.dot b.v * b.m else 0) = b.v.dot b.v * b.m := by
    split
    · rfl
    · rename_i h
      rw [not_not.1 h, zero_mul]
  have e2 : (if b.w * b.w ≠ 0 then b.w * b.w * b.i else 0) = b.w * b.w * b.i := by
    split
    · rfl
    · rename_i h
      rw [not_not.1 h, zero_mul]
  unfold Body.kineticEnergy trueEnergy
  dsimp only
  rw [e1, e2, V2.dot]
  ring

/-- **C130.** An impulse at a point does the work of mechanics: the impulse times the mean of the velocities of that point before and after. The energy `KineticEnergy` reports grows by
twice that. -/
theorem C130_work (M : Mth K) (inf : K) (b : Body K) (hb : Reached M inf b) (hm : b.m * b.mInv = 1) (hi : b.i * b.iInv = 1) (s : PointPush K) :
    let b' := b.shoveImpulse s
    let u := pointSpeed b (s.spot M b)
    let u' := pointSpeed b' (s.spot M b)
    trueEnergy b' = trueEnergy b + ((s.dir M b).x * ((u.x + u'.x) / 2) + (s.dir M b).y * ((u.y + u'.y) / 2)) ∧ u = b.velocityAtWorld (s.spot M b) ∧
    b'.kineticEnergy = b.kineticEnergy + ((s.dir M b).x * (u.x + u'.x) + (s.dir M b).y * (u.y + u'.y)) := by
  intro b' u u'
  have e : b' = _ := shoveImpulse_eq M b hb.placed s
  have w1 : trueEnergy b' = trueEnergy b + ((s.dir M b).x * ((u.x + u'.x) / 2) + (s.dir M b).y * ((u.y + u'.y) / 2)) := by
    show _ = _ + ((s.dir M b).x * (((pointSpeed b (s.spot M b)).x + (pointSpeed b' (s.spot M b)).x) / 2) + (s.dir M b).y * (((pointSpeed b (s.spot M b)).y + (pointSpeed b' (s.spot M b)).y) / 2))
    rw [e]
    simp only [trueEnergy, pointSpeed]
    generalize s.dir M b = f
    generalize s.spot M b = q
    have h2 : (2 : K) ≠ 0 := two_ne_zero
    field_simp
    set A := (q.x - b.p.x) * f.y - (q.y - b.p.y) * f.x
    linear_combination (2 * b.v.x * f.x + f.x ^ 2 * b.mInv + 2 * b.v.y * f.y + f.y ^ 2 * b.mInv) * hm + (2 * b.w * A + b.iInv * A ^ 2) * hi
  refine ⟨w1, ?_, ?_⟩
  · have h := C33_velocity M inf b hb (s.spot M b)
    exact V2.ext h.2.1.symm h.2.2.symm
  · rw [kineticEnergy_eq, kineticEnergy_eq, w1]
    have h2 : (2 : K) ≠ 0 := two_ne_zero
    field_simp

/-- `KineticEnergy` reports twice the kinetic energy, also of a body that only spins or does not move; so the answer is wrong for every moving body. -/
theorem C130_energy_twice (b : Body K) : b.kineticEnergy = 2 * trueEnergy b ∧ (0 < b.m → 0 < b.i → (b.v ≠ V2.zero ∨ b.w ≠ 0) → b.kineticEnergy ≠ trueEnergy b) := by
  refine ⟨kineticEnergy_eq b, fun hm hi hv h => ?_⟩
  rw [kineticEnergy_eq] at h
  have h0 : trueEnergy b = 0 := by linarith
  have hx : 0 ≤ b.v.x ^ 2 := sq_nonneg _
  have hy : 0 ≤ b.v.y ^ 2 := sq_nonneg _
  have hw : 0 ≤ b.w ^ 2 := sq_nonneg _
  have p1 : 0 ≤ b.m * (b.v.x ^ 2 + b.v.y ^ 2) := mul_nonneg hm.le (by linarith)
  have p2 : 0 ≤ b.i * b.w ^ 2 := mul_nonneg hi.le hw
  unfold trueEnergy at h0
  have q1 : b.m * (b.v.x ^ 2 + b.v.y ^ 2) = 0 := by linarith
  have q2 : b.i * b.w ^ 2 = 0 := by linarith
  rcases mul_eq_zero.1 q1 with h | h
  · exact hm.ne' h
  rcases mul_eq_zero.1 q2 with h' | h'
  · exact hi.ne' h'
  have a1 : b.v.x = 0 := by have : b.v.x ^ 2 = 0 := by linarith
                            exact pow_eq_zero_iff (two_ne_zero) |>.1 this
  have a2 : b.v.y = 0 := by have : b.v.y ^ 2 = 0 := by linarith
                            exact pow_eq_zero_iff (two_ne_zero) |>.1 this
  have a3 : b.w = 0 := pow_eq_zero_iff (two_ne_zero) |>.1 h'
  rcases hv with hv | hv
  · exact hv (V2.ext a1 a2)
  · exact hv a3

/-- A body of mass 2 and moment 3, turned, with two impulses, one given in the body's own coordinates. -/
def exShoved : Body ℚ := (Body.new toyMth 2 3).run toyMth 1000 [.setAngle 1, .setPosition ⟨1, 2⟩, .setVelocity ⟨1, 0⟩]
example : Reached toyMth 1000 exShoved ∧ exShoved.m * exShoved.mInv = 1 ∧ exShoved.i * exShoved.iInv = 1 ∧ exShoved.type 1000 ≠ .kinematic ∧
    shoveSum toyMth exShoved [⟨true, ⟨5, 0⟩, ⟨0, 1⟩⟩, ⟨false, ⟨0, 1⟩, ⟨4, 2⟩⟩] = ⟨3, 5⟩ ∧ shoveMoment toyMth exShoved exShoved.p [⟨true, ⟨5, 0⟩, ⟨0, 1⟩⟩, ⟨false, ⟨0, 1⟩, ⟨4, 2⟩⟩] = -2 ∧
    0 < exShoved.m ∧ 0 < exShoved.i ∧ exShoved.v ≠ V2.zero :=
  ⟨⟨2, 3, _, rfl⟩, by decide +kernel, by decide +kernel, by decide +kernel, by decide +kernel, by decide +kernel, by decide +kernel, by decide +kernel, by decide +kernel⟩

end Cm
