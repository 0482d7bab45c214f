import Verif.Props.Groups
/-! # C118: what rests in equilibrium stays at rest -/
set_option linter.unusedSectionVars false
set_option linter.unusedSimpArgs false
set_option linter.unusedVariables false

namespace Cm
open Spec
variable {K : Type} [Field K] [LinearOrder K] [IsStrictOrderedRing K]

namespace Spec
/-- A body is at rest: no velocity of either kind, no force, and its transform is that of its position. -/
structure AtRest (M : Mth K) (b : Body K) : Prop where
  v : b.v = ⟨0, 0⟩
  w : b.w = 0
  vBias : b.vBias = ⟨0, 0⟩
  wBias : b.wBias = 0
  force : b.force = ⟨0, 0⟩
  torque : b.torque = 0
  tr : b.tr = Body.mkTransform M b.cog b.p b.angle

/-- An impulse on a body: the number of the body, where it acts as seen from the centre of gravity, and the impulse. -/
structure Shove (K : Type) where
  on : Nat
  r : V2 K
  j : V2 K

/-- The impulse of a link on its second body, and the opposite on its first. -/
def pushes {α : Type} (l : Link α) (r1 r2 j : V2 K) : List (Shove K) := [⟨l.ia, r1, ⟨-j.x, -j.y⟩⟩, ⟨l.ib, r2, j⟩]

/-- The impulses of a collision: along the normal and across it, at each contact. -/
def contactPushes (l : Link (Arbiter K)) : List (Shove K) :=
  l.it.contacts.flatMap fun c => pushes l c.r1 c.r2
    ⟨c.jnAcc * l.it.normal.x - c.jtAcc * l.it.normal.y, c.jnAcc * l.it.normal.y + c.jtAcc * l.it.normal.x⟩

/-- Where an anchor is, as seen from the centre of gravity of its body. -/
def arm (b : Body K) (anchor : V2 K) : V2 K :=
  ⟨b.tr.a * (anchor.x - b.cog.x) + b.tr.c * (anchor.y - b.cog.y), b.tr.b * (anchor.x - b.cog.x) + b.tr.d * (anchor.y - b.cog.y)⟩

/-- From the one anchor to the other. -/
def span (a b : Body K) (anchorA anchorB : V2 K) : V2 K :=
  ⟨(b.p.x + (arm b anchorB).x) - (a.p.x + (arm a anchorA).x), (b.p.y + (arm b anchorB).y) - (a.p.y + (arm a anchorA).y)⟩

/-- The impulses of a pin or a pivot; other joints have none here. -/
def jointPushes (bs : Nat → Body K) (l : Link (Joint K)) : List (Shove K) :=
  match l.it with
  | .pin j =>
    let d := span (bs l.ia) (bs l.ib) j.anchorA j.anchorB
    pushes l (arm (bs l.ia) j.anchorA) (arm (bs l.ib) j.anchorB) ⟨j.jnAcc * (d.x / j.dist), j.jnAcc * (d.y / j.dist)⟩
  | .pivot j => pushes l (arm (bs l.ia) j.anchorA) (arm (bs l.ib) j.anchorB) j.jAcc
  | _ => []

/-- What a body is given by a list of impulses: along `x`, along `y`, and as spin. -/
def sumX (k : Nat) (l : List (Shove K)) : K := (l.map fun s => if s.on = k then s.j.x else 0).sum
def sumY (k : Nat) (l : List (Shove K)) : K := (l.map fun s => if s.on = k then s.j.y else 0).sum
def sumSpin (k : Nat) (l : List (Shove K)) : K := (l.map fun s => if s.on = k then s.r.x * s.j.y - s.r.y * s.j.x else 0).sum

/-- A collision that can carry what it carries: not new, each contact pushes and does not pull, its friction is within the limit, the shapes do not overlap
by more than is allowed, and the surfaces do not move. -/
structure Bears (slop : K) (a b : Body K) (arb : Arbiter K) : Prop where
  old : arb.state ≠ .first
  still : arb.surfaceVr = ⟨0, 0⟩
  push : ∀ c ∈ arb.contacts, 0 ≤ c.jnAcc
  friction : ∀ c ∈ arb.contacts, |c.jtAcc| ≤ arb.u * c.jnAcc
  depth : ∀ c ∈ arb.contacts,
    -slop ≤ (c.r2.x - c.r1.x + (b.p.x - a.p.x)) * arb.normal.x + (c.r2.y - c.r1.y + (b.p.y - a.p.y)) * arb.normal.y

/-- A joint that can carry what it carries: a pin of its length, or a pivot with its anchors in one place, with an impulse its largest force can give; or a
slide joint which is neither stretched nor pressed. -/
def Carries (dt : K) (a b : Body K) : Joint K → Prop
  | .pin j => let d := span a b j.anchorA j.anchorB
    0 < j.dist ∧ d.x * d.x + d.y * d.y = j.dist * j.dist ∧ 0 ≤ j.maxBias ∧ |j.jnAcc| ≤ j.maxForce * dt
  | .pivot j => span a b j.anchorA j.anchorB = ⟨0, 0⟩ ∧ j.jAcc.x * j.jAcc.x + j.jAcc.y * j.jAcc.y ≤ (j.maxForce * dt) ^ 2
  | .slide j => let d := span a b j.anchorA j.anchorB
    0 ≤ j.min ∧ 0 ≤ j.max ∧ j.min * j.min ≤ d.x * d.x + d.y * d.y ∧ d.x * d.x + d.y * d.y ≤ j.max * j.max ∧ 0 ≤ j.maxBias
  | _ => False

/-- The bodies rest in equilibrium: they are at rest, those that the space moves are dynamic and those it does not are immovable, no link is from a body to
itself, the collisions and joints can carry what they carry, and on each body that is moved their impulses of a step make up for the gravity of a step. -/
structure Equilibrium (M : Mth K) (par : Params K) (dt : K) (dyn : List Nat) (bs : Nat → Body K) (arbs : List (Link (Arbiter K)))
    (joints : List (Link (Joint K))) : Prop where
  rest : ∀ k, AtRest M (bs k)
  moved : ∀ k ∈ dyn, (bs k).m ≠ par.inf ∧ (bs k).idle ≠ par.inf
  fixed : ∀ k, k ∉ dyn → (bs k).mInv = 0 ∧ (bs k).iInv = 0
  arbApart : ∀ l ∈ arbs, l.ia ≠ l.ib
  jointApart : ∀ l ∈ joints, l.ia ≠ l.ib
  bears : ∀ l ∈ arbs, Bears par.slop (bs l.ia) (bs l.ib) l.it
  carries : ∀ l ∈ joints, Carries dt (bs l.ia) (bs l.ib) l.it
  balance : ∀ k ∈ dyn, let l := arbs.flatMap contactPushes ++ joints.flatMap (jointPushes bs)
    par.gravity.x * dt + sumX k l * (bs k).mInv = 0 ∧ par.gravity.y * dt + sumY k l * (bs k).mInv = 0 ∧ (bs k).iInv * sumSpin k l = 0

/-- Two collisions with the same impulses at the same contacts. -/
structure SameLoad (x y : Arbiter K) : Prop where
  normal : y.normal = x.normal
  state : y.state = x.state
  u : y.u = x.u
  surfaceVr : y.surfaceVr = x.surfaceVr
  contacts : y.contacts.map (fun c => (c.r1, c.r2, c.jnAcc, c.jtAcc, c.hash)) = x.contacts.map (fun c => (c.r1, c.r2, c.jnAcc, c.jtAcc, c.hash))

/-- Two joints that are made the same and have the same impulse. -/
def SameHold : Joint K → Joint K → Prop
  | .pin x, .pin y => y.toJointCfg = x.toJointCfg ∧ y.anchorA = x.anchorA ∧ y.anchorB = x.anchorB ∧ y.dist = x.dist ∧ y.jnAcc = x.jnAcc
  | .pivot x, .pivot y => y.toJointCfg = x.toJointCfg ∧ y.anchorA = x.anchorA ∧ y.anchorB = x.anchorB ∧ y.jAcc = x.jAcc
  | .slide x, .slide y => y.toJointCfg = x.toJointCfg ∧ y.anchorA = x.anchorA ∧ y.anchorB = x.anchorB ∧ y.min = x.min ∧ y.max = x.max
  | _, _ => False

/-- Two links between the same bodies whose items are related. -/
def SameLink {α : Type} (R : α → α → Prop) (x y : Link α) : Prop := y.ia = x.ia ∧ y.ib = x.ib ∧ R x.it y.it

/-- Steps of one length, in each of which the collisions of the step before are found again, with the impulses they had. -/
def FoundAgain (M : Mth K) (par : Params K) (dt : K) (dyn : List Nat) : List (StepIn K) → SolverState K → Prop
  | [], _ => True
  | i :: is, s => i.dt = dt ∧ i.dyn = dyn ∧ List.Forall₂ (SameLink SameLoad) s.arbs i.arbs ∧ FoundAgain M par dt dyn is (s.step M par dt i)
end Spec

/-! ## Loops that change nothing, and loops that add impulses -/

theorem putPair_back (bs : Nat → Body K) (i j : Nat) : putPair bs i j (bs i) (bs j) = bs := by
  funext k; unfold putPair; split_ifs with h h'
  · rw [h]
  · rw [h']
  · rfl

theorem linkLoop_fixed {α : Type} (f : α → Body K → Body K → Body K × Body K × α) (g : α → Body K → Body K → α) (ls : List (Link α)) (bs : Nat → Body K)
    (h : ∀ l ∈ ls, f l.it (bs l.ia) (bs l.ib) = (bs l.ia, bs l.ib, g l.it (bs l.ia) (bs l.ib))) :
    linkLoop f ls bs = (bs, ls.map fun l => { l with it := g l.it (bs l.ia) (bs l.ib) }) := by
  induction ls with
  | nil => rfl
  | cons l ls ih =>
    have e := h l List.mem_cons_self
    simp only [linkLoop, e, putPair_back, ih (fun l' m => h l' (List.mem_cons_of_mem _ m)), List.map_cons]

/-- A body with an impulse added. -/
def shoved (b : Body K) (x y s : K) : Body K :=
  { b with v := ⟨b.v.x + x * b.mInv, b.v.y + y * b.mInv⟩, w := b.w + b.iInv * s }

theorem shoved_zero (b : Body K) : shoved b 0 0 0 = b := by simp [shoved]

theorem shoved_shoved (b : Body K) (x y s x' y' s' : K) : shoved (shoved b x y s) x' y' s' = shoved b (x + x') (y + y') (s + s') := by
  simp only [shoved, Body.mk.injEq, V2.mk.injEq, true_and, and_true]
  refine ⟨?_, ?_, ?_⟩ <;> ring

/-- The bodies with a list of impulses added. -/
def shovedAll (c : K) (l : List (Shove K)) (bs : Nat → Body K) : Nat → Body K := fun k => shoved (bs k) (c * sumX k l) (c * sumY k l) (c * sumSpin k l)

theorem shovedAll_nil (c : K) (bs : Nat → Body K) : shovedAll c [] bs = bs := by
  funext k; simp [shovedAll, sumX, sumY, sumSpin, shoved_zero]

theorem shovedAll_append (c : K) (l l' : List (Shove K)) (bs : Nat → Body K) : shovedAll c (l ++ l') bs = shovedAll c l' (shovedAll c l bs) := by
  funext k
  simp only [shovedAll, shoved_shoved, sumX, sumY, sumSpin, List.map_append, List.sum_append, mul_add]

theorem applyImpulses_shoved (c : K) (bs : Nat → Body K) {α : Type} (l : Link α) (h : l.ia ≠ l.ib) (r1 r2 j j' : V2 K) (hj : j' = ⟨j.x * c, j.y * c⟩) :
    putPair bs l.ia l.ib (applyImpulses (bs l.ia) (bs l.ib) r1 r2 j').1 (applyImpulses (bs l.ia) (bs l.ib) r1 r2 j').2 = shovedAll c (pushes l r1 r2 j) bs := by
  subst hj
  funext k
  have h' := h.symm
  unfold putPair shovedAll pushes applyImpulses sumX sumY sumSpin
  by_cases e : k = l.ia
  · subst e
    simp only [if_pos rfl, List.map_cons, List.map_nil, List.sum_cons, List.sum_nil, if_neg h', shoved, Body.mk.injEq, V2.mk.injEq, true_and, and_true, if_true]
    refine ⟨?_, ⟨?_, ?_⟩⟩ <;> ring
  · by_cases e' : k = l.ib
    · subst e'
      simp only [if_pos rfl, List.map_cons, List.map_nil, List.sum_cons, List.sum_nil, if_neg h, if_neg h', shoved, Body.mk.injEq, V2.mk.injEq, true_and, and_true, if_true]
      refine ⟨?_, ⟨?_, ?_⟩⟩ <;> ring
    · have e1 : ¬(l.ia = k) := fun h => e h.symm
      have e2 : ¬(l.ib = k) := fun h => e' h.symm
      simp [if_neg e, if_neg e', if_neg e1, if_neg e2, shoved_zero, e1, e2]

theorem putPair_at (bs : Nat → Body K) (i j : Nat) (h : i ≠ j) (a b : Body K) : putPair bs i j a b i = a ∧ putPair bs i j a b j = b := by
  constructor
  · simp [putPair]
  · simp [putPair, h.symm]

theorem putPair_twice (bs : Nat → Body K) (i j : Nat) (a b a' b' : Body K) : putPair (putPair bs i j a b) i j a' b' = putPair bs i j a' b' := by
  funext k; unfold putPair; split_ifs <;> rfl

theorem cachedLoop_shoved (n : V2 K) (c : K) {α : Type} (l : Link α) (h : l.ia ≠ l.ib) (cs : List (Contact K)) : ∀ bs : Nat → Body K,
    putPair bs l.ia l.ib (Arbiter.cachedLoop n c cs (bs l.ia) (bs l.ib)).1 (Arbiter.cachedLoop n c cs (bs l.ia) (bs l.ib)).2 =
      shovedAll c (cs.flatMap fun k => pushes l k.r1 k.r2 ⟨k.jnAcc * n.x - k.jtAcc * n.y, k.jnAcc * n.y + k.jtAcc * n.x⟩) bs := by
  induction cs with
  | nil => intro bs; simp only [Arbiter.cachedLoop, putPair_back, List.flatMap_nil, shovedAll_nil]
  | cons k cs ih =>
    intro bs
    simp only [Arbiter.cachedLoop, List.flatMap_cons]
    have e := applyImpulses_shoved c bs l h k.r1 k.r2 ⟨k.jnAcc * n.x - k.jtAcc * n.y, k.jnAcc * n.y + k.jtAcc * n.x⟩
      ((n.rotate ⟨k.jnAcc, k.jtAcc⟩).scale c) (by simp only [V2.rotate, V2.scale, V2.mk.injEq]; constructor <;> ring)
    rw [shovedAll_append, ← e, ← ih]
    generalize applyImpulses (bs l.ia) (bs l.ib) k.r1 k.r2 ((n.rotate ⟨k.jnAcc, k.jtAcc⟩).scale c) = ab
    obtain ⟨p, q⟩ := putPair_at bs l.ia l.ib h ab.1 ab.2
    rw [p, q, putPair_twice]

theorem linkLoop_shoved {α : Type} (f : α → Body K → Body K → Body K × Body K × α) (c : K) (g : Link α → List (Shove K)) (ls : List (Link α)) :
    ∀ bs : Nat → Body K, (∀ l ∈ ls, ∀ bs : Nat → Body K, (f l.it (bs l.ia) (bs l.ib)).2.2 = l.it ∧
      putPair bs l.ia l.ib (f l.it (bs l.ia) (bs l.ib)).1 (f l.it (bs l.ia) (bs l.ib)).2.1 = shovedAll c (g l) bs) →
    linkLoop f ls bs = (shovedAll c (ls.flatMap g) bs, ls) := by
  induction ls with
  | nil => intro bs _; simp only [linkLoop, List.flatMap_nil, shovedAll_nil]
  | cons l ls ih =>
    intro bs h
    obtain ⟨e1, e2⟩ := h l List.mem_cons_self bs
    simp only [linkLoop, e1, e2, ih _ (fun l' m => h l' (List.mem_cons_of_mem _ m)), List.flatMap_cons, shovedAll_append]

/-! ## At rest -/

theorem applyImpulses_none (a b : Body K) (r1 r2 j : V2 K) (h : j = ⟨0, 0⟩) : applyImpulses a b r1 r2 j = (a, b) := by
  subst h; simp [applyImpulses]

theorem applyBiasImpulses_none (a b : Body K) (r1 r2 j : V2 K) (h : j = ⟨0, 0⟩) : applyBiasImpulses a b r1 r2 j = (a, b) := by
  subst h; simp [applyBiasImpulses]

theorem relativeVelocity_rest {M : Mth K} {a b : Body K} (ha : AtRest M a) (hb : AtRest M b) (r1 r2 : V2 K) : relativeVelocity a b r1 r2 = ⟨0, 0⟩ := by
  simp [relativeVelocity, ha.v, ha.w, hb.v, hb.w, V2.scale, V2.add, V2.sub]

theorem clamp_within {x m : K} (h : |x| ≤ m) : clamp x (-m) m = x := by
  obtain ⟨h1, h2⟩ := abs_le.mp h
  unfold clamp
  split_ifs with h3
  · exact min_eq_left h2
  · have : x = -m := le_antisymm (not_lt.mp h3) h1
    rw [this]; exact min_eq_left (by linarith)

theorem contactStep_rest {M : Mth K} {a b : Body K} (ha : AtRest M a) (hb : AtRest M b) (n : V2 K) (u : K) (c : Contact K) (h1 : c.bias = 0) (h2 : c.jBias = 0)
    (h3 : c.bounce = 0) (h4 : 0 ≤ c.jnAcc) (h5 : |c.jtAcc| ≤ u * c.jnAcc) : Arbiter.contactStep n ⟨0, 0⟩ u a b c = (a, b, c) := by
  have e1 : ∀ r : V2 K, (V2.add (⟨0, 0⟩ : V2 K) (r.perp.scale 0)) = ⟨0, 0⟩ := by intro r; simp [V2.add, V2.scale]
  have e2 : ∀ m : V2 K, ((⟨0, 0⟩ : V2 K).add ⟨0, 0⟩).dot m = 0 := by intro m; simp [V2.add, V2.dot]
  have e3 : ∀ m : V2 K, ((⟨0, 0⟩ : V2 K).sub ⟨0, 0⟩).dot m = 0 := by intro m; simp [V2.sub, V2.dot]
  simp only [Arbiter.contactStep, ha.vBias, ha.wBias, hb.vBias, hb.wBias, relativeVelocity_rest ha hb, e1, e2, e3, h1, h2, h3, sub_zero, zero_mul, add_zero, neg_zero,
    max_self, max_eq_left h4, clamp_within h5, sub_self]
  rw [applyBiasImpulses_none _ _ _ _ _ (by simp [V2.scale])]
  dsimp only
  rw [applyImpulses_none _ _ _ _ _ (by simp [V2.rotate])]
  cases c
  simp_all

theorem impulseLoop_rest {M : Mth K} {a b : Body K} (ha : AtRest M a) (hb : AtRest M b) (n : V2 K) (u : K) (cs : List (Contact K))
    (h : ∀ c ∈ cs, c.bias = 0 ∧ c.jBias = 0 ∧ c.bounce = 0 ∧ 0 ≤ c.jnAcc ∧ |c.jtAcc| ≤ u * c.jnAcc) : Arbiter.impulseLoop n ⟨0, 0⟩ u cs a b = (a, b, cs) := by
  induction cs with
  | nil => rfl
  | cons c cs ih =>
    obtain ⟨h1, h2, h3, h4, h5⟩ := h c List.mem_cons_self
    simp only [Arbiter.impulseLoop, contactStep_rest ha hb n u c h1 h2 h3 h4 h5, ih fun c' m => h c' (List.mem_cons_of_mem _ m)]

theorem preStepContact_rest {M : Mth K} {a b : Body K} (ha : AtRest M a) (hb : AtRest M b) {slop : K} {arb : Arbiter K} (h : Bears slop a b arb) (dt bias : K) :
    ∀ c ∈ (arb.preStep a b dt slop bias).contacts, c.bias = 0 ∧ c.jBias = 0 ∧ c.bounce = 0 ∧ 0 ≤ c.jnAcc ∧ |c.jtAcc| ≤ arb.u * c.jnAcc := by
  intro c hc
  simp only [Arbiter.preStep, List.mem_map] at hc
  obtain ⟨c0, m, rfl⟩ := hc
  have hd := h.depth c0 m
  refine ⟨?_, rfl, ?_, h.push c0 m, h.friction c0 m⟩
  · simp only [Arbiter.preStepContact]
    rw [min_eq_left (by simp only [V2.dot, V2.add, V2.sub]; linarith)]
    simp
  · simp only [Arbiter.preStepContact, normalRelativeVelocity, relativeVelocity_rest ha hb]
    simp [V2.dot]

theorem preStep_sameLoad {arb : Arbiter K} {a b : Body K} (dt slop bias : K) : SameLoad arb (arb.preStep a b dt slop bias) := by
  refine ⟨rfl, rfl, rfl, rfl, ?_⟩
  simp only [Arbiter.preStep, List.map_map]
  rfl

theorem arbiter_rest {M : Mth K} {a b : Body K} (ha : AtRest M a) (hb : AtRest M b) {slop : K} {arb : Arbiter K} (h : Bears slop a b arb) (dt bias : K) :
    (arb.preStep a b dt slop bias).applyImpulse a b = (a, b, arb.preStep a b dt slop bias) := by
  have hs : (arb.preStep a b dt slop bias).surfaceVr = ⟨0, 0⟩ := h.still
  simp only [Arbiter.applyImpulse, hs]
  rw [show (arb.preStep a b dt slop bias).u = arb.u from rfl, impulseLoop_rest ha hb _ _ _ (preStepContact_rest ha hb h dt bias), ← hs]
  rfl

theorem positions_rest {M : Mth K} {b : Body K} (h : AtRest M b) (dt : K) : b.updatePosition M dt = b := by
  obtain ⟨h1, h2, h3, h4, h5, h6, h7⟩ := h
  cases b
  simp only at h1 h2 h3 h4 h5 h6 h7
  subst h1 h2 h3 h4 h5 h6
  simp only [Body.updatePosition, Body.setTransform, V2.add, V2.scale, add_zero, zero_mul, V2.zero]
  rw [h7]

/-! ## The joints -/

theorem anchorOffset_arm (b : Body K) (q : V2 K) : anchorOffset b q = arm b q := by
  simp only [anchorOffset, arm, Transform.applyVector, V2.sub]

theorem pin_span (a b : Body K) (qa qb : V2 K) : b.p.add ((arm b qb).sub (a.p.add (arm a qa))) = span a b qa qb := by
  simp only [span, V2.add, V2.sub, V2.mk.injEq]; constructor <;> ring

theorem other_span (a b : Body K) (qa qb : V2 K) : (b.p.add (arm b qb)).sub (a.p.add (arm a qa)) = span a b qa qb := rfl

theorem root_square {M : Mth K} (hM : M.Lawful) {x d : K} (hd : 0 ≤ d) (h : x = d * d) : M.sqrt x = d := by
  have h0 : 0 ≤ x := by rw [h]; exact mul_nonneg hd hd
  have h1 := hM.sqrt_sq x h0
  have h2 := hM.sqrt_nonneg x h0
  rw [h] at h1 h2 ⊢
  exact (mul_self_inj h2 hd).mp h1

theorem root_le {M : Mth K} (hM : M.Lawful) {x d : K} (h0 : 0 ≤ x) (hd : 0 ≤ d) (h : x ≤ d * d) : M.sqrt x ≤ d := by
  have h1 := hM.sqrt_sq x h0
  exact (mul_self_le_mul_self_iff (hM.sqrt_nonneg x h0) hd).mpr (by rw [h1]; exact h)

theorem le_root {M : Mth K} (hM : M.Lawful) {x d : K} (h0 : 0 ≤ x) (hd : 0 ≤ d) (h : d * d ≤ x) : d ≤ M.sqrt x := by
  have h1 := hM.sqrt_sq x h0
  exact (mul_self_le_mul_self_iff hd (hM.sqrt_nonneg x h0)).mpr (by rw [h1]; exact h)

theorem clampMag_within (M : Mth K) {v : V2 K} {m : K} (h : v.x * v.x + v.y * v.y ≤ m ^ 2) : v.clampMag M m = v := by
  unfold V2.clampMag
  rw [if_neg]
  simp only [V2.dot, gt_iff_lt, not_lt]
  linarith [sq m]

theorem preStep_pin {M : Mth K} (hM : M.Lawful) {a b : Body K} {dt inf : K} {j : PinJoint K} (h : Carries dt a b (.pin j)) :
    j.preStep M inf a b dt = { j with
      r1 := arm a j.anchorA, r2 := arm b j.anchorB
      n := ⟨(span a b j.anchorA j.anchorB).x / j.dist, (span a b j.anchorA j.anchorB).y / j.dist⟩
      nMass := 1 / kScalar a b (arm a j.anchorA) (arm b j.anchorB) ⟨(span a b j.anchorA j.anchorB).x / j.dist, (span a b j.anchorA j.anchorB).y / j.dist⟩
      bias := 0 } := by
  obtain ⟨h1, h2, h3, h4⟩ := h
  have e : (span a b j.anchorA j.anchorB).mag M = j.dist := by
    unfold V2.mag
    exact root_square hM h1.le (by simpa only [V2.lengthSq, V2.dot] using h2)
  have en : (span a b j.anchorA j.anchorB).scale (1 / j.dist) =
      ⟨(span a b j.anchorA j.anchorB).x / j.dist, (span a b j.anchorA j.anchorB).y / j.dist⟩ := by
    simp only [V2.scale, V2.mk.injEq]; constructor <;> ring
  simp only [PinJoint.preStep, anchorOffset_arm, pin_span, e, if_pos h1.ne', en, sub_self, mul_zero, zero_div]
  rw [clamp_within (by simpa using h3)]

theorem preStep_pivot {M : Mth K} {a b : Body K} {dt : K} {j : PivotJoint K} (h : Carries dt a b (.pivot j)) :
    j.preStep M a b dt = { j with r1 := arm a j.anchorA, r2 := arm b j.anchorB, k := kTensor a b (arm a j.anchorA) (arm b j.anchorB), bias := ⟨0, 0⟩ } := by
  obtain ⟨h1, h2⟩ := h
  simp only [PivotJoint.preStep, anchorOffset_arm, other_span, h1]
  rw [show (⟨0, 0⟩ : V2 K).scale (-(biasCoef M j.errorBias dt) / dt) = ⟨0, 0⟩ by simp [V2.scale]]
  rw [clampMag_within M (by simp [sq_nonneg])]

theorem preStep_slide {M : Mth K} (hM : M.Lawful) {a b : Body K} {dt : K} {j : SlideJoint K} (h : Carries dt a b (.slide j)) :
    j.preStep M a b dt = { j with r1 := arm a j.anchorA, r2 := arm b j.anchorB, n := V2.zero, jnAcc := 0,
                                  nMass := 1 / kScalar a b (arm a j.anchorA) (arm b j.anchorB) V2.zero, bias := 0 } := by
  obtain ⟨h1, h2, h3, h4, h5⟩ := h
  have h0 : 0 ≤ (span a b j.anchorA j.anchorB).lengthSq := by
    simp only [V2.lengthSq, V2.dot]; nlinarith [mul_self_nonneg (span a b j.anchorA j.anchorB).x, mul_self_nonneg (span a b j.anchorA j.anchorB).y]
  have e1 : (span a b j.anchorA j.anchorB).mag M ≤ j.max := root_le hM h0 h2 (by simpa only [V2.lengthSq, V2.dot] using h4)
  have e2 : j.min ≤ (span a b j.anchorA j.anchorB).mag M := le_root hM h0 h1 (by simpa only [V2.lengthSq, V2.dot] using h3)
  simp only [SlideJoint.preStep, anchorOffset_arm, other_span, gt_iff_lt, not_lt.mpr e1, not_lt.mpr e2, if_false, mul_zero, zero_div]
  rw [clamp_within (by simpa using h5)]

theorem preStep_hold {M : Mth K} (hM : M.Lawful) {a b : Body K} {dt inf : K} {jt : Joint K} (h : Carries dt a b jt) :
    jt.preStep M inf a b dt = (a, b, (jt.preStep M inf a b dt).2.2) ∧ SameHold jt (jt.preStep M inf a b dt).2.2 := by
  cases jt with
  | pin j => exact ⟨rfl, by simp [Joint.preStep, preStep_pin hM h, SameHold]⟩
  | pivot j => exact ⟨rfl, by simp [Joint.preStep, preStep_pivot h, SameHold]⟩
  | slide j => exact ⟨rfl, by simp [Joint.preStep, preStep_slide hM h, SameHold]⟩
  | _ => exact h.elim

theorem joint_rest {M : Mth K} (hM : M.Lawful) {a b : Body K} (ha : AtRest M a) (hb : AtRest M b) {dt inf : K} {jt : Joint K} (h : Carries dt a b jt) :
    ((jt.preStep M inf a b dt).2.2).applyImpulse M a b dt = (a, b, (jt.preStep M inf a b dt).2.2) := by
  cases jt with
  | pin j =>
    have e : ∀ m : V2 K, (⟨0, 0⟩ : V2 K).dot m = 0 := by intro m; simp [V2.dot]
    simp only [Joint.preStep, preStep_pin hM h, Joint.applyImpulse, PinJoint.applyImpulse, normalRelativeVelocity, relativeVelocity_rest ha hb, e, sub_zero, zero_mul,
      add_zero, clamp_within h.2.2.2, sub_self]
    rw [applyImpulses_none _ _ _ _ _ (by simp [V2.scale])]
  | pivot j =>
    have e : ∀ m : Mat2x2 K, m.transform ((⟨0, 0⟩ : V2 K).sub ⟨0, 0⟩) = ⟨0, 0⟩ := by intro m; simp [Mat2x2.transform, V2.sub]
    have e' : j.jAcc.add ⟨0, 0⟩ = j.jAcc := by simp [V2.add]
    simp only [Joint.preStep, preStep_pivot h, Joint.applyImpulse, PivotJoint.applyImpulse, relativeVelocity_rest ha hb, e, e', clampMag_within M h.2]
    rw [applyImpulses_none _ _ _ _ _ (by simp [V2.sub])]
  | slide j =>
    simp only [Joint.preStep, preStep_slide hM h, Joint.applyImpulse, SlideJoint.applyImpulse, if_true]
  | _ => exact h.elim

theorem joint_pushes {M : Mth K} (hM : M.Lawful) (bs0 : Nat → Body K) (l : Link (Joint K)) (hne : l.ia ≠ l.ib) {dt inf : K}
    (h : Carries dt (bs0 l.ia) (bs0 l.ib) l.it) (bs : Nat → Body K) :
    putPair bs l.ia l.ib ((l.it.preStep M inf (bs0 l.ia) (bs0 l.ib) dt).2.2.applyCached (bs l.ia) (bs l.ib) 1).1
      ((l.it.preStep M inf (bs0 l.ia) (bs0 l.ib) dt).2.2.applyCached (bs l.ia) (bs l.ib) 1).2 = shovedAll 1 (jointPushes bs0 l) bs := by
  obtain ⟨ia, ib, jt⟩ := l
  dsimp only at h hne ⊢
  cases jt with
  | pin j =>
    simp only [Joint.preStep, preStep_pin hM h, Joint.applyCached, PinJoint.applyCached, jointPushes]
    exact applyImpulses_shoved 1 bs ⟨ia, ib, ()⟩ hne _ _ _ _ (by simp only [V2.scale, V2.mk.injEq]; constructor <;> ring)
  | pivot j =>
    simp only [Joint.preStep, preStep_pivot h, Joint.applyCached, PivotJoint.applyCached, jointPushes]
    exact applyImpulses_shoved 1 bs ⟨ia, ib, ()⟩ hne _ _ _ _ (by simp only [V2.scale, V2.mk.injEq])
  | slide j =>
    simp only [Joint.preStep, preStep_slide hM h, Joint.applyCached, SlideJoint.applyCached, jointPushes]
    rw [applyImpulses_none _ _ _ _ _ (by simp [V2.scale, V2.zero]), shovedAll_nil]
    exact putPair_back bs ia ib
  | _ => exact h.elim

/-! ## The step -/

theorem contactPushes_same {x y : Link (Arbiter K)} (h : SameLink SameLoad x y) : contactPushes y = contactPushes x := by
  obtain ⟨h1, h2, h3⟩ := h
  have key : ∀ (cs ds : List (Contact K)), ds.map (fun c => (c.r1, c.r2, c.jnAcc, c.jtAcc, c.hash)) = cs.map (fun c => (c.r1, c.r2, c.jnAcc, c.jtAcc, c.hash)) →
      ∀ n : V2 K, (ds.flatMap fun c => pushes y c.r1 c.r2 ⟨c.jnAcc * n.x - c.jtAcc * n.y, c.jnAcc * n.y + c.jtAcc * n.x⟩) =
        cs.flatMap fun c => pushes x c.r1 c.r2 ⟨c.jnAcc * n.x - c.jtAcc * n.y, c.jnAcc * n.y + c.jtAcc * n.x⟩ := by
    intro cs
    induction cs with
    | nil => intro ds hd n; cases ds with
      | nil => rfl
      | cons d ds => simp at hd
    | cons c cs ih => intro ds hd n; cases ds with
      | nil => simp at hd
      | cons d ds =>
        simp only [List.map_cons, List.cons.injEq, Prod.mk.injEq] at hd
        obtain ⟨⟨a1, a2, a3, a4, a5⟩, a6⟩ := hd
        rw [List.flatMap_cons, List.flatMap_cons, ih ds a6 n]
        simp only [a1, a2, a3, a4, pushes, h1, h2]
  unfold contactPushes
  rw [h3.normal]
  exact key _ _ h3.contacts _

theorem jointPushes_same (bs : Nat → Body K) {x y : Link (Joint K)} (h : SameLink SameHold x y) : jointPushes bs y = jointPushes bs x := by
  obtain ⟨h1, h2, h3⟩ := h
  obtain ⟨xa, xb, xi⟩ := x
  obtain ⟨ya, yb, yi⟩ := y
  dsimp only at h1 h2 h3
  subst h1 h2
  cases xi <;> cases yi <;> simp only [SameHold] at h3 <;> try exact h3.elim
  · obtain ⟨_, a1, a2, a3, a4⟩ := h3; simp only [jointPushes, a1, a2, a3, a4, pushes]
  · rfl
  · obtain ⟨_, a1, a2, a3⟩ := h3; simp only [jointPushes, a1, a2, a3, pushes]

theorem flatMap_map_same {α β : Type} (f : α → α) (g : α → List β) (ls : List α) (h : ∀ l ∈ ls, g (f l) = g l) : (ls.map f).flatMap g = ls.flatMap g := by
  induction ls with
  | nil => rfl
  | cons l ls ih => simp only [List.map_cons, List.flatMap_cons, h l List.mem_cons_self, ih fun l' m => h l' (List.mem_cons_of_mem _ m)]

theorem solve_rest {M : Mth K} (hM : M.Lawful) {par : Params K} {dt : K} (hdt : dt ≠ 0) {dyn : List Nat} {s : SolverState K}
    (h : Equilibrium M par dt dyn s.bodies s.arbs s.joints) :
    SolverState.solve M par.inf par.slop par.cbias par.damping par.gravity dyn dt dt par.iterations s =
      ⟨s.bodies, s.arbs.map fun l => { l with it := l.it.preStep (s.bodies l.ia) (s.bodies l.ib) dt par.slop (1 - M.pow par.cbias dt) },
        s.joints.map fun l => { l with it := (l.it.preStep M par.inf (s.bodies l.ia) (s.bodies l.ib) dt).2.2 }⟩ := by
  obtain ⟨bs, arbs, joints⟩ := s
  dsimp only at h ⊢
  have e1 : (SolverState.mk bs arbs joints).preStep M par.inf par.slop par.cbias dt =
      ⟨bs, arbs.map fun l => { l with it := l.it.preStep (bs l.ia) (bs l.ib) dt par.slop (1 - M.pow par.cbias dt) },
        joints.map fun l => { l with it := (l.it.preStep M par.inf (bs l.ia) (bs l.ib) dt).2.2 }⟩ := by
    simp only [SolverState.preStep]
    rw [linkLoop_fixed (fun (arb : Arbiter K) (a b : Body K) => (a, b, arb.preStep a b dt par.slop (1 - M.pow par.cbias dt)))
      (fun arb a b => arb.preStep a b dt par.slop (1 - M.pow par.cbias dt)) arbs bs (fun l m => rfl)]
    dsimp only
    rw [linkLoop_fixed (fun (jt : Joint K) (a b : Body K) => jt.preStep M par.inf a b dt)
      (fun jt a b => (jt.preStep M par.inf a b dt).2.2) joints bs (fun l m => (preStep_hold hM (h.carries l m)).1)]
  have e2 : ∀ (A : List (Link (Arbiter K))) (J : List (Link (Joint K))), (SolverState.mk bs A J).velocities M par.inf par.damping par.gravity dyn dt =
      ⟨fun k => if k ∈ dyn then { bs k with v := ⟨par.gravity.x * dt, par.gravity.y * dt⟩ } else bs k, A, J⟩ := by
    intro A J
    simp only [SolverState.velocities]
    congr 1
    funext k
    split_ifs with m
    · obtain ⟨m1, m2⟩ := h.moved k m
      have ht : (bs k).type par.inf ≠ .kinematic := by simp [Body.type, m1, m2]
      have r := h.rest k
      generalize bs k = b at r ht
      obtain ⟨h1, h2, h3, h4, h5, h6, h7⟩ := r
      rw [Body.updateVelocity, if_neg ht]
      cases b
      simp only at h1 h2 h3 h4 h5 h6
      subst h1 h2 h3 h4 h5 h6
      simp [V2.add, V2.scale, V2.zero]
    · rfl
  have e3 : (SolverState.mk (fun k => if k ∈ dyn then { bs k with v := ⟨par.gravity.x * dt, par.gravity.y * dt⟩ } else bs k)
      (arbs.map fun l => { l with it := l.it.preStep (bs l.ia) (bs l.ib) dt par.slop (1 - M.pow par.cbias dt) })
      (joints.map fun l => { l with it := (l.it.preStep M par.inf (bs l.ia) (bs l.ib) dt).2.2 })).cached dt dt =
      ⟨bs, arbs.map fun l => { l with it := l.it.preStep (bs l.ia) (bs l.ib) dt par.slop (1 - M.pow par.cbias dt) },
        joints.map fun l => { l with it := (l.it.preStep M par.inf (bs l.ia) (bs l.ib) dt).2.2 }⟩ := by
    simp only [SolverState.cached, if_pos hdt, div_self hdt]
    rw [linkLoop_shoved (fun (arb : Arbiter K) (a b : Body K) => ((arb.applyCachedImpulse a b 1).1, (arb.applyCachedImpulse a b 1).2, arb)) 1 contactPushes]
    · dsimp only
      rw [linkLoop_shoved (fun (jt : Joint K) (a b : Body K) => ((jt.applyCached a b 1).1, (jt.applyCached a b 1).2, jt)) 1 (jointPushes bs)]
      · rw [flatMap_map_same (fun l : Link (Arbiter K) => { l with it := l.it.preStep (bs l.ia) (bs l.ib) dt par.slop (1 - M.pow par.cbias dt) }) contactPushes
            arbs (fun l m => contactPushes_same ⟨rfl, rfl, preStep_sameLoad _ _ _⟩),
          flatMap_map_same (fun l : Link (Joint K) => { l with it := (l.it.preStep M par.inf (bs l.ia) (bs l.ib) dt).2.2 }) (jointPushes bs) joints (fun l m => jointPushes_same bs ⟨rfl, rfl, (preStep_hold hM (h.carries l m)).2⟩), ← shovedAll_append]
        congr 1
        funext k
        simp only [shovedAll, one_mul]
        by_cases m : k ∈ dyn
        · obtain ⟨b1, b2, b3⟩ := h.balance k m
          have r := h.rest k
          rw [if_pos m]
          simp only [shoved]
          rw [b1, b2, b3, ← r.v, add_zero]
        · obtain ⟨f1, f2⟩ := h.fixed k m
          rw [if_neg m]
          simp only [shoved, f1, f2, mul_zero, zero_mul, add_zero]
          cases hb : bs k
          simp_all
      · intro l hl bs'
        obtain ⟨l0, m, rfl⟩ := List.mem_map.mp hl
        refine ⟨rfl, ?_⟩
        rw [jointPushes_same bs (x := l0) (y := { l0 with it := (l0.it.preStep M par.inf (bs l0.ia) (bs l0.ib) dt).2.2 })
          ⟨rfl, rfl, (preStep_hold hM (h.carries l0 m)).2⟩]
        exact joint_pushes hM bs l0 (h.jointApart l0 m) (h.carries l0 m) bs'
    · intro l hl bs'
      obtain ⟨l0, m, rfl⟩ := List.mem_map.mp hl
      refine ⟨rfl, ?_⟩
      have hs : (l0.it.preStep (bs l0.ia) (bs l0.ib) dt par.slop (1 - M.pow par.cbias dt)).state ≠ .first := (h.bears l0 m).old
      simp only [Arbiter.applyCachedImpulse, if_neg hs]
      exact cachedLoop_shoved _ 1 l0 (h.arbApart l0 m) _ bs'
  simp only [SolverState.solve, e1, e2, e3]
  apply Function.iterate_fixed
  simp only [SolverState.iterate]
  rw [linkLoop_fixed (fun (arb : Arbiter K) (a b : Body K) => arb.applyImpulse a b) (fun arb _ _ => arb)]
  · dsimp only
    rw [linkLoop_fixed (fun (jt : Joint K) (a b : Body K) => jt.applyImpulse M a b dt) (fun jt _ _ => jt)]
    · simp
    · intro l hl
      obtain ⟨l0, m, rfl⟩ := List.mem_map.mp hl
      exact joint_rest hM (h.rest _) (h.rest _) (h.carries l0 m)
  · intro l hl
    obtain ⟨l0, m, rfl⟩ := List.mem_map.mp hl
    exact arbiter_rest (h.rest _) (h.rest _) (h.bears l0 m) dt _

theorem forall2_map {α : Type} (R : α → α → Prop) (f : α → α) (ls : List α) (h : ∀ l ∈ ls, R l (f l)) : List.Forall₂ R ls (ls.map f) := by
  induction ls with
  | nil => exact .nil
  | cons l ls ih => exact .cons (h l List.mem_cons_self) (ih fun l' m => h l' (List.mem_cons_of_mem _ m))

/-- Bodies that rest in equilibrium are exactly the same after a step, and the collisions and joints carry exactly what they carried. -/
theorem C118_step {M : Mth K} (hM : M.Lawful) {par : Params K} {dt : K} (hdt : dt ≠ 0) {i : StepIn K} (hi : i.dt = dt) {s : SolverState K}
    (h : Equilibrium M par dt i.dyn s.bodies i.arbs s.joints) :
    (s.step M par dt i).bodies = s.bodies ∧ List.Forall₂ (SameLink SameLoad) i.arbs (s.step M par dt i).arbs ∧
      List.Forall₂ (SameLink SameHold) s.joints (s.step M par dt i).joints := by
  have ep : s.positions M i.dyn dt = s := by
    obtain ⟨bs, arbs, joints⟩ := s
    simp only [SolverState.positions]
    congr 1
    funext k
    split_ifs
    · exact positions_rest (h.rest k) dt
    · rfl
  rw [SolverState.step, hi, if_neg hdt, ep, solve_rest hM hdt (s := { s with arbs := i.arbs }) h]
  exact ⟨rfl, forall2_map _ _ _ fun l m => ⟨rfl, rfl, preStep_sameLoad _ _ _⟩, forall2_map _ _ _ fun l m => ⟨rfl, rfl, (preStep_hold hM (h.carries l m)).2⟩⟩

/-! ## Many steps -/

theorem Spec.SameLoad.bears {slop : K} {a b : Body K} {x y : Arbiter K} (h : SameLoad x y) (hx : Bears slop a b x) : Bears slop a b y := by
  have key : ∀ c ∈ y.contacts, ∃ d ∈ x.contacts, c.r1 = d.r1 ∧ c.r2 = d.r2 ∧ c.jnAcc = d.jnAcc ∧ c.jtAcc = d.jtAcc := by
    intro c hc
    have m : (c.r1, c.r2, c.jnAcc, c.jtAcc, c.hash) ∈ y.contacts.map (fun c => (c.r1, c.r2, c.jnAcc, c.jtAcc, c.hash)) := List.mem_map_of_mem hc
    rw [h.contacts] at m
    obtain ⟨d, md, e⟩ := List.mem_map.mp m
    simp only [Prod.mk.injEq] at e
    exact ⟨d, md, e.1.symm, e.2.1.symm, e.2.2.1.symm, e.2.2.2.1.symm⟩
  refine ⟨h.state ▸ hx.old, h.surfaceVr ▸ hx.still, ?_, ?_, ?_⟩
  · intro c hc; obtain ⟨d, md, e1, e2, e3, e4⟩ := key c hc; rw [e3]; exact hx.push d md
  · intro c hc; obtain ⟨d, md, e1, e2, e3, e4⟩ := key c hc; rw [e3, e4, h.u]; exact hx.friction d md
  · intro c hc; obtain ⟨d, md, e1, e2, e3, e4⟩ := key c hc; rw [e1, e2, h.normal]; exact hx.depth d md

theorem hold_carries {dt : K} {a b : Body K} {x y : Joint K} (h : SameHold x y) (hx : Carries dt a b x) : Carries dt a b y := by
  cases x <;> cases y <;> simp only [SameHold] at h <;> try exact h.elim
  · obtain ⟨a0, a1, a2, a3, a4⟩ := h
    simp only [Carries, a0, a1, a2, a3, a4] at hx ⊢; exact hx
  · obtain ⟨a0, a1, a2, a3, a4⟩ := h; simp only [Carries, a0, a1, a2, a3, a4] at hx ⊢; exact hx
  · obtain ⟨a0, a1, a2, a3⟩ := h; simp only [Carries, a0, a1, a2, a3] at hx ⊢; exact hx

theorem forall2_refl {α : Type} {R : α → α → Prop} (ls : List α) (h : ∀ l ∈ ls, R l l) : List.Forall₂ R ls ls := by
  have := forall2_map R (fun l => l) ls h
  rwa [List.map_id'] at this

theorem hold_refl {dt : K} {a b : Body K} {x : Joint K} (h : Carries dt a b x) : SameHold x x := by
  cases x <;> simp only [Carries] at h <;> simp [SameHold]

theorem forall2_mem {α : Type} {R : α → α → Prop} {xs ys : List α} (h : List.Forall₂ R xs ys) : ∀ y ∈ ys, ∃ x ∈ xs, R x y := by
  induction h with
  | nil => intro y m; cases m
  | cons h1 _ ih =>
    intro y m
    cases List.mem_cons.mp m with
    | inl e => exact ⟨_, List.mem_cons_self, e ▸ h1⟩
    | inr m => obtain ⟨x, mx, r⟩ := ih y m; exact ⟨x, List.mem_cons_of_mem _ mx, r⟩

theorem forall2_flatMap {α β : Type} {R : α → α → Prop} (g : α → List β) (hg : ∀ x y, R x y → g y = g x) {xs ys : List α} (h : List.Forall₂ R xs ys) :
    ys.flatMap g = xs.flatMap g := by
  induction h with
  | nil => rfl
  | cons h1 _ ih => simp only [List.flatMap_cons, ih, hg _ _ h1]

theorem Spec.Equilibrium.transfer {M : Mth K} {par : Params K} {dt : K} {dyn : List Nat} {bs : Nat → Body K} {A A' : List (Link (Arbiter K))}
    {J J' : List (Link (Joint K))} (h : Equilibrium M par dt dyn bs A J) (hA : List.Forall₂ (SameLink SameLoad) A A')
    (hJ : List.Forall₂ (SameLink SameHold) J J') : Equilibrium M par dt dyn bs A' J' := by
  refine ⟨h.rest, h.moved, h.fixed, ?_, ?_, ?_, ?_, ?_⟩
  · intro l m; obtain ⟨x, mx, r1, r2, r3⟩ := forall2_mem hA l m; rw [r1, r2]; exact h.arbApart x mx
  · intro l m; obtain ⟨x, mx, r1, r2, r3⟩ := forall2_mem hJ l m; rw [r1, r2]; exact h.jointApart x mx
  · intro l m; obtain ⟨x, mx, r1, r2, r3⟩ := forall2_mem hA l m; rw [r1, r2]; exact r3.bears (h.bears x mx)
  · intro l m; obtain ⟨x, mx, r1, r2, r3⟩ := forall2_mem hJ l m; rw [r1, r2]; exact hold_carries r3 (h.carries x mx)
  · rw [forall2_flatMap contactPushes (fun x y r => contactPushes_same r) hA, forall2_flatMap (jointPushes bs) (fun x y r => jointPushes_same bs r) hJ]
    exact h.balance

theorem load_trans {x y z : Arbiter K} (h : SameLoad x y) (h' : SameLoad y z) : SameLoad x z :=
  ⟨h'.normal.trans h.normal, h'.state.trans h.state, h'.u.trans h.u, h'.surfaceVr.trans h.surfaceVr, h'.contacts.trans h.contacts⟩

theorem hold_trans {x y z : Joint K} (h : SameHold x y) (h' : SameHold y z) : SameHold x z := by
  cases x <;> cases y <;> simp only [SameHold] at h <;> try exact h.elim
  all_goals (cases z <;> simp only [SameHold] at h' <;> try exact h'.elim)
  · exact ⟨h'.1.trans h.1, h'.2.1.trans h.2.1, h'.2.2.1.trans h.2.2.1, h'.2.2.2.1.trans h.2.2.2.1, h'.2.2.2.2.trans h.2.2.2.2⟩
  · exact ⟨h'.1.trans h.1, h'.2.1.trans h.2.1, h'.2.2.1.trans h.2.2.1, h'.2.2.2.1.trans h.2.2.2.1, h'.2.2.2.2.trans h.2.2.2.2⟩
  · exact ⟨h'.1.trans h.1, h'.2.1.trans h.2.1, h'.2.2.1.trans h.2.2.1, h'.2.2.2.trans h.2.2.2⟩

theorem sameLink_trans {α : Type} {R : α → α → Prop} (hR : ∀ x y z, R x y → R y z → R x z) : ∀ {xs ys zs : List (Link α)},
    List.Forall₂ (SameLink R) xs ys → List.Forall₂ (SameLink R) ys zs → List.Forall₂ (SameLink R) xs zs := by
  intro xs
  induction xs with
  | nil => intro ys zs h1 h2; cases h1; cases h2; exact .nil
  | cons x xs ih =>
    intro ys zs h1 h2
    cases h1 with
    | cons a b => cases h2 with
      | cons c d => exact .cons ⟨c.1.trans a.1, c.2.1.trans a.2.1, hR _ _ _ a.2.2 c.2.2⟩ (ih b d)

/-- Bodies that rest in equilibrium are exactly where they were, and at rest, after any number of steps of one length; the collisions and joints carry exactly what
they carried. -/
theorem C118_steps {M : Mth K} (hM : M.Lawful) {par : Params K} {dt : K} (hdt : dt ≠ 0) {dyn : List Nat} (is : List (StepIn K)) : ∀ {s : SolverState K},
    Equilibrium M par dt dyn s.bodies s.arbs s.joints → FoundAgain M par dt dyn is s →
    (SolverState.steps M par is dt s).bodies = s.bodies ∧ List.Forall₂ (SameLink SameLoad) s.arbs (SolverState.steps M par is dt s).arbs ∧
      List.Forall₂ (SameLink SameHold) s.joints (SolverState.steps M par is dt s).joints := by
  induction is with
  | nil =>
    intro s h _
    exact ⟨rfl, forall2_refl _ fun l _ => ⟨rfl, rfl, ⟨rfl, rfl, rfl, rfl, rfl⟩⟩, forall2_refl _ fun l m => ⟨rfl, rfl, hold_refl (h.carries l m)⟩⟩
  | cons i is ih =>
    intro s h hf
    obtain ⟨f1, f2, f3, f4⟩ := hf
    have h' : Equilibrium M par dt i.dyn s.bodies i.arbs s.joints := by
      rw [f2]
      exact h.transfer f3 (forall2_refl _ fun l m => ⟨rfl, rfl, hold_refl (h.carries l m)⟩)
    obtain ⟨c1, c2, c3⟩ := C118_step hM hdt f1 h'
    have h'' : Equilibrium M par dt dyn (s.step M par dt i).bodies (s.step M par dt i).arbs (s.step M par dt i).joints := by
      rw [c1]; rw [f2] at h'; exact h'.transfer c2 c3
    obtain ⟨d1, d2, d3⟩ := ih h'' f4
    have e : SolverState.steps M par (i :: is) dt s = SolverState.steps M par is dt (s.step M par dt i) := by
      simp only [SolverState.steps, f1, if_neg hdt]
    rw [e]
    exact ⟨d1.trans c1, sameLink_trans (R := SameLoad) (fun _ _ _ a b => load_trans a b) (sameLink_trans (R := SameLoad) (fun _ _ _ a b => load_trans a b) f3 c2) d2,
      sameLink_trans (R := SameHold) (fun _ _ _ a b => hold_trans a b) c3 d3⟩

/-! ## An example: two balls on each other on a floor, and a weight on a pin -/

noncomputable def exPoiseBody (m mInv idle : ℝ) (p : V2 ℝ) : Body ℝ :=
  ⟨m, mInv, 1, mInv, 0, 0, 0, ⟨0, 0⟩, p, ⟨0, 0⟩, ⟨0, 0⟩, Body.mkTransform realMth ⟨0, 0⟩ p 0, idle, ⟨0, 0⟩, 0⟩

noncomputable def exPoiseBodies : Nat → Body ℝ := fun k =>
  if k = 1 then exPoiseBody 1 1 0 ⟨0, 1⟩ else if k = 2 then exPoiseBody 2 (1/2) 0 ⟨0, 3⟩ else if k = 3 then exPoiseBody 1 1 0 ⟨3, 4⟩
  else exPoiseBody 1000 0 1000 ⟨0, 0⟩

noncomputable def exPoiseContact (r1 r2 : V2 ℝ) (jn : ℝ) : Contact ℝ := ⟨r1, r2, 0, 0, 0, jn, 0, 0, 0, 0⟩

noncomputable def exPoiseArbs : List (Link (Arbiter ℝ)) :=
  [⟨0, 1, ⟨0, 1, ⟨0, 0⟩, ⟨0, 1⟩, [exPoiseContact ⟨0, 0⟩ ⟨0, -1⟩ 3], .normal, false⟩⟩,
   ⟨1, 2, ⟨0, 1, ⟨0, 0⟩, ⟨0, 1⟩, [exPoiseContact ⟨0, 1⟩ ⟨0, -1⟩ 2], .normal, false⟩⟩]

noncomputable def exPoiseJoints : List (Link (Joint ℝ)) :=
  [⟨0, 3, .pin { maxForce := 100, errorBias := 0, maxBias := 100, anchorA := ⟨3, 9⟩, anchorB := ⟨0, 0⟩, dist := 5, r1 := ⟨0, 0⟩, r2 := ⟨0, 0⟩, n := ⟨0, 0⟩,
                 nMass := 0, jnAcc := -1, bias := 0 }⟩]

noncomputable def exPoisePar : Params ℝ := ⟨1000, 0, 0, 1, ⟨0, -10⟩, 10⟩

theorem exPoise : Equilibrium realMth exPoisePar (1/10) [1, 2, 3] exPoiseBodies exPoiseArbs exPoiseJoints := by
  have ht : ∀ (m mi idle : ℝ) (p : V2 ℝ), AtRest realMth (exPoiseBody m mi idle p) := fun m mi idle p => ⟨rfl, rfl, rfl, rfl, rfl, rfl, rfl⟩
  refine ⟨?_, ?_, ?_, ?_, ?_, ?_, ?_, ?_⟩
  · intro k; unfold exPoiseBodies; split_ifs <;> exact ht _ _ _ _
  · intro k m
    simp only [List.mem_cons, List.not_mem_nil, or_false] at m
    rcases m with rfl | rfl | rfl <;> simp [exPoiseBodies, exPoiseBody, exPoisePar]
  · intro k m
    simp only [List.mem_cons, List.not_mem_nil, or_false, not_or] at m
    simp [exPoiseBodies, exPoiseBody, m]
  · intro l m; simp [exPoiseArbs] at m; rcases m with rfl | rfl <;> simp
  · intro l m; simp [exPoiseJoints] at m; rcases m with rfl; simp
  · intro l m
    simp [exPoiseArbs] at m
    rcases m with rfl | rfl <;> refine ⟨by simp, rfl, ?_, ?_, ?_⟩ <;> intro c hc <;> simp at hc <;> subst hc <;>
      simp [exPoiseContact, exPoiseBodies, exPoiseBody, exPoisePar] <;> norm_num
  · intro l m
    simp [exPoiseJoints] at m
    subst m
    simp [Carries, span, arm, exPoiseBodies, exPoiseBody, Body.mkTransform, Transform.transpose, realMth]
    norm_num
  · intro k m
    simp only [List.mem_cons, List.not_mem_nil, or_false] at m
    rcases m with rfl | rfl | rfl <;>
      simp [exPoiseArbs, exPoiseJoints, contactPushes, jointPushes, pushes, sumX, sumY, sumSpin, exPoiseContact, span, arm, exPoiseBodies, exPoiseBody, Body.mkTransform,
        Transform.transpose, realMth, exPoisePar] <;> norm_num

example : ∀ is, FoundAgain realMth exPoisePar (1/10) [1, 2, 3] is ⟨exPoiseBodies, exPoiseArbs, exPoiseJoints⟩ →
    (SolverState.steps realMth exPoisePar is (1/10) ⟨exPoiseBodies, exPoiseArbs, exPoiseJoints⟩).bodies = exPoiseBodies :=
  fun is h => (C118_steps realMth_lawful (by norm_num) is exPoise h).1

/-! ## Steps of another length -/

def exStackBody (m mInv idle : ℚ) (p : V2 ℚ) : Body ℚ :=
  ⟨m, mInv, 1, mInv, 0, 0, 0, ⟨0, 0⟩, p, ⟨0, 0⟩, ⟨0, 0⟩, Body.mkTransform gridMth ⟨0, 0⟩ p 0, idle, ⟨0, 0⟩, 0⟩

def exStackBodies : Nat → Body ℚ := fun k =>
  if k = 1 then exStackBody 1 1 0 ⟨0, 1⟩ else if k = 2 then exStackBody 2 (1/2) 0 ⟨0, 3⟩ else exStackBody 1000 0 1000 ⟨0, 0⟩

def exStackArbs : List (Link (Arbiter ℚ)) :=
  [⟨0, 1, ⟨0, 1, ⟨0, 0⟩, ⟨0, 1⟩, [⟨⟨0, 0⟩, ⟨0, -1⟩, 0, 0, 0, 3, 0, 0, 0, 0⟩], .normal, false⟩⟩,
   ⟨1, 2, ⟨0, 1, ⟨0, 0⟩, ⟨0, 1⟩, [⟨⟨0, 1⟩, ⟨0, -1⟩, 0, 0, 0, 2, 0, 0, 0, 0⟩], .normal, false⟩⟩]

def exStackPar : Params ℚ := ⟨1000, 0, 0, 1, ⟨0, -10⟩, 1⟩

theorem exStack : Equilibrium gridMth exStackPar (1/10) [1, 2] exStackBodies exStackArbs [] := by
  refine ⟨?_, ?_, ?_, ?_, ?_, ?_, ?_, ?_⟩
  · intro k; unfold exStackBodies; split_ifs <;> exact ⟨rfl, rfl, rfl, rfl, rfl, rfl, rfl⟩
  · intro k m
    simp only [List.mem_cons, List.not_mem_nil, or_false] at m
    rcases m with rfl | rfl <;> simp [exStackBodies, exStackBody, exStackPar]
  · intro k m
    simp only [List.mem_cons, List.not_mem_nil, or_false, not_or] at m
    simp [exStackBodies, exStackBody, m]
  · intro l m; simp [exStackArbs] at m; rcases m with rfl | rfl <;> simp
  · intro l m; cases m
  · intro l m
    simp [exStackArbs] at m
    rcases m with rfl | rfl <;> refine ⟨by simp, rfl, ?_, ?_, ?_⟩ <;> intro c hc <;> simp at hc <;> subst hc <;>
      simp [exStackBodies, exStackBody, exStackPar] <;> norm_num
  · intro l m; cases m
  · intro k m
    simp only [List.mem_cons, List.not_mem_nil, or_false] at m
    rcases m with rfl | rfl <;> simp [exStackArbs, contactPushes, pushes, sumX, sumY, sumSpin, exStackBodies, exStackBody, exStackPar] <;> norm_num

/-- When the length of the steps changes, two balls on each other that rest in equilibrium are set in motion: in the step that is longer their impulses are applied in
proportion, but they are kept as they were, and are too small in the step after it. -/
theorem C118_other_length : ((⟨exStackBodies, exStackArbs, []⟩ : SolverState ℚ).step gridMth exStackPar (1/10) ⟨1/5, [1, 2], exStackArbs⟩).bodies 2 = exStackBodies 2 ∧
    ((SolverState.steps gridMth exStackPar [⟨1/5, [1, 2], exStackArbs⟩, ⟨1/5, [1, 2], exStackArbs⟩] (1/10) ⟨exStackBodies, exStackArbs, []⟩).bodies 2).v = ⟨0, -2/3⟩ := by
  constructor <;> decide +kernel
end Cm
