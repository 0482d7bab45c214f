import Verif.Props.Descent
import Verif.Props.Sunk
import Verif.Props.Rest
/-! # C128: with enough iterations the solver finds the solution -/
set_option linter.unusedSectionVars false
set_option linter.unusedSimpArgs false
set_option linter.unusedVariables false

namespace Cm
open Spec
variable {K : Type} [Field K] [LinearOrder K] [IsStrictOrderedRing K]

namespace Spec
/-- For each body its velocity along `x` and `y` and its angular velocity. -/
abbrev Flow (K : Type) := Nat → K × K × K

/-- The solver works on velocities and, with the same contacts, on those that only correct the places: which velocity of a body, which impulse of a contact
and which speed of parting it asks for. -/
structure Channel (K : Type) where
  flow : Body K → K × K × K
  load : Contact K → K
  goal : Contact K → K

/-- The velocities proper: touching bodies are to part as fast as they bounce. -/
def Channel.impacts : Channel K := ⟨fun b => (b.v.x, b.v.y, b.w), fun c => c.jnAcc, fun c => -c.bounce⟩
/-- The velocities that correct overlaps. -/
def Channel.corrections : Channel K := ⟨fun b => (b.vBias.x, b.vBias.y, b.wBias), fun c => c.jBias, fun c => c.bias⟩

/-- A contact: its bodies, the normal from the first to the second, the places from the centres of gravity, the speed asked for and the impulse so far. -/
structure Touch (K : Type) where
  ia : Nat
  ib : Nat
  n : V2 K
  r1 : V2 K
  r2 : V2 K
  goal : K
  load : K

/-- The contacts of all collisions. -/
def touchOf (κ : Channel K) (l : Link (Arbiter K)) (c : Contact K) : Touch K := ⟨l.ia, l.ib, l.it.normal, c.r1, c.r2, κ.goal c, κ.load c⟩
def allTouches (κ : Channel K) (arbs : List (Link (Arbiter K))) : List (Touch K) := arbs.flatMap fun l => l.it.contacts.map (touchOf κ l)

/-- The speed at which points at `r1` and `r2` of bodies that move by `x` and `y` part along `n`. -/
def partSpeed (n r1 r2 : V2 K) (x y : K × K × K) : K :=
  (y.1 - y.2.2 * r2.y - (x.1 - x.2.2 * r1.y)) * n.x + (y.2.1 + y.2.2 * r2.x - (x.2.1 + x.2.2 * r1.x)) * n.y

def Touch.speed (t : Touch K) (u : Flow K) : K := partSpeed t.n t.r1 t.r2 (u t.ia) (u t.ib)

/-- What a unit impulse in the contact does to a body of inverse mass `m` and inverse moment `i`. -/
def pushed (n r : V2 K) (m i : K) : K × K × K := (m * n.x, m * n.y, i * (r.x * n.y - r.y * n.x))
def Touch.push (t : Touch K) (m i : K) (k : Nat) : K × K × K :=
  if k = t.ib then pushed t.n t.r2 m i else if k = t.ia then -pushed t.n t.r1 m i else 0

/-- `u` are velocities that solve the contacts of `s`, with the impulse `p.2` in the contact `p.1`: they come from those of `s` by the impulses; the contacts only push;
all bodies part at least at the speed asked for, and at exactly that speed where there is a push. -/
structure Solves (κ : Channel K) (s : SolverState K) (P : List (Touch K × K)) (u : Flow K) : Prop where
  all : P.map Prod.fst = allTouches κ s.arbs
  moved : ∀ k, u k = κ.flow (s.bodies k) + (P.map fun p => (p.2 - p.1.load) • p.1.push (s.bodies k).mInv (s.bodies k).iInv k).sum
  push : ∀ p ∈ P, 0 ≤ p.2
  part : ∀ p ∈ P, p.1.goal ≤ p.1.speed u
  exact : ∀ p ∈ P, 0 < p.2 → p.1.speed u = p.1.goal

/-- Two different bodies that can be pushed apart, and prepared contacts with impulses that push. -/
structure Primed (κ : Channel K) (μ ι : Nat → K) (l : Link (Arbiter K)) : Prop where
  ne : l.ia ≠ l.ib
  unit : l.it.normal.x ^ 2 + l.it.normal.y ^ 2 = 1
  contacts : ∀ c ∈ l.it.contacts, 0 ≤ κ.load c ∧
    ∃ k, 0 < k ∧ c.nMass = 1 / k ∧ k = μ l.ia + ι l.ia * (c.r1.cross l.it.normal) ^ 2 + (μ l.ib + ι l.ib * (c.r2.cross l.it.normal) ^ 2)
end Spec

/-! ## The form -/
open Descent

/-- The kinetic energy of differences of velocities, doubled. -/
def form (N : Nat) (μ ι : Nat → K) : Flow K →ₗ[K] Flow K →ₗ[K] K :=
  LinearMap.mk₂ K (fun x y => ∑ k ∈ Finset.range N, ((x k).1 * (y k).1 / μ k + (x k).2.1 * (y k).2.1 / μ k + (x k).2.2 * (y k).2.2 / ι k))
    (fun x x' y => by rw [← Finset.sum_add_distrib]; refine Finset.sum_congr rfl fun k _ => ?_; simp only [Pi.add_apply, Prod.fst_add, Prod.snd_add]; ring)
    (fun c x y => by rw [smul_eq_mul, Finset.mul_sum]; refine Finset.sum_congr rfl fun k _ => ?_; simp only [Pi.smul_apply, Prod.smul_fst, Prod.smul_snd, smul_eq_mul]; ring)
    (fun x y y' => by rw [← Finset.sum_add_distrib]; refine Finset.sum_congr rfl fun k _ => ?_; simp only [Pi.add_apply, Prod.fst_add, Prod.snd_add]; ring)
    (fun c x y => by rw [smul_eq_mul, Finset.mul_sum]; refine Finset.sum_congr rfl fun k _ => ?_; simp only [Pi.smul_apply, Prod.smul_fst, Prod.smul_snd, smul_eq_mul]; ring)

theorem form_apply (N : Nat) (μ ι : Nat → K) (x y : Flow K) :
    form N μ ι x y = ∑ k ∈ Finset.range N, ((x k).1 * (y k).1 / μ k + (x k).2.1 * (y k).2.1 / μ k + (x k).2.2 * (y k).2.2 / ι k) := rfl

theorem form_sym (N : Nat) (μ ι : Nat → K) (x y : Flow K) : form N μ ι x y = form N μ ι y x := by
  rw [form_apply, form_apply]
  refine Finset.sum_congr rfl fun k _ => ?_
  ring

theorem form_nonneg {N : Nat} {μ ι : Nat → K} (hμ : ∀ k, 0 ≤ μ k) (hι : ∀ k, 0 ≤ ι k) (x : Flow K) : 0 ≤ form N μ ι x x := by
  rw [form_apply]
  refine Finset.sum_nonneg fun k _ => ?_
  have h1 := div_nonneg (mul_self_nonneg (x k).1) (hμ k)
  have h2 := div_nonneg (mul_self_nonneg (x k).2.1) (hμ k)
  have h3 := div_nonneg (mul_self_nonneg (x k).2.2) (hι k)
  linarith

/-- Differences of velocities that impulses can make: none for immovable bodies. -/
def Reach (μ ι : Nat → K) (x : Flow K) : Prop := ∀ k, (μ k = 0 → (x k).1 = 0 ∧ (x k).2.1 = 0) ∧ (ι k = 0 → (x k).2.2 = 0)

/-- What a unit impulse in a contact does. -/
def dvec (μ ι : Nat → K) (t : Touch K) : Flow K := fun k => t.push (μ k) (ι k) k

theorem dvec_reach (μ ι : Nat → K) (t : Touch K) : Reach μ ι (dvec μ ι t) := by
  intro k
  simp only [dvec, Touch.push, pushed]
  constructor
  · intro h; rw [h]; split_ifs <;> simp
  · intro h; rw [h]; split_ifs <;> simp

theorem Reach.add {μ ι : Nat → K} {x y : Flow K} (hx : Reach μ ι x) (hy : Reach μ ι y) (c : K) : Reach μ ι (x + c • y) := by
  intro k
  constructor
  · intro h
    obtain ⟨a1, a2⟩ := (hx k).1 h
    obtain ⟨b1, b2⟩ := (hy k).1 h
    simp [a1, a2, b1, b2]
  · intro h
    simp [(hx k).2 h, (hy k).2 h]

theorem reach_zero (μ ι : Nat → K) : Reach μ ι (0 : Flow K) := fun k => ⟨fun _ => ⟨rfl, rfl⟩, fun _ => rfl⟩

theorem cancel {m a y : K} (h : m = 0 → y = 0) : m * a * y / m = a * y := by
  rcases eq_or_ne m 0 with h0 | h0
  · rw [h h0, h0]; simp
  · field_simp

theorem form_dvec {N : Nat} {μ ι : Nat → K} {t : Touch K} (ha : t.ia < N) (hb : t.ib < N) (hne : t.ia ≠ t.ib) {x : Flow K} (hx : Reach μ ι x) :
    form N μ ι (dvec μ ι t) x = t.speed x := by
  rw [form_apply, Finset.sum_eq_add t.ia t.ib hne]
  · have e1 : dvec μ ι t t.ib = pushed t.n t.r2 (μ t.ib) (ι t.ib) := by simp [dvec, Touch.push]
    have e2 : dvec μ ι t t.ia = -pushed t.n t.r1 (μ t.ia) (ι t.ia) := by simp [dvec, Touch.push, hne]
    rw [e1, e2]
    obtain ⟨a1, a2⟩ := hx t.ia
    obtain ⟨b1, b2⟩ := hx t.ib
    simp only [pushed, Prod.fst_neg, Prod.snd_neg, neg_mul, neg_div]
    rw [cancel fun h => (a1 h).1, cancel fun h => (a1 h).2, cancel a2, cancel fun h => (b1 h).1, cancel fun h => (b1 h).2, cancel b2]
    simp only [Touch.speed, partSpeed]
    ring
  · intro k _ hk
    simp [dvec, Touch.push, hk.1, hk.2]
  · intro h; exact absurd (Finset.mem_range.2 ha) h
  · intro h; exact absurd (Finset.mem_range.2 hb) h

theorem form_self {N : Nat} {μ ι : Nat → K} {t : Touch K} (ha : t.ia < N) (hb : t.ib < N) (hne : t.ia ≠ t.ib) (hn : t.n.x ^ 2 + t.n.y ^ 2 = 1) :
    form N μ ι (dvec μ ι t) (dvec μ ι t) = μ t.ia + ι t.ia * (t.r1.cross t.n) ^ 2 + (μ t.ib + ι t.ib * (t.r2.cross t.n) ^ 2) := by
  rw [form_dvec ha hb hne (dvec_reach _ _ _)]
  have e1 : dvec μ ι t t.ib = pushed t.n t.r2 (μ t.ib) (ι t.ib) := by simp [dvec, Touch.push]
  have e2 : dvec μ ι t t.ia = -pushed t.n t.r1 (μ t.ia) (ι t.ia) := by simp [dvec, Touch.push, hne]
  rw [Touch.speed, e1, e2]
  simp only [partSpeed, pushed, Prod.fst_neg, Prod.snd_neg, V2.cross]
  linear_combination (μ t.ia + μ t.ib) * hn

/-! ## One contact -/

/-- A kind of velocity on which the contacts act by themselves, as long as they and their arbiters fit. -/
def Acts (κ : Channel K) (Fit : V2 K → V2 K → K → Contact K → Prop) : Prop :=
  ∀ n sv fr a b c, Fit n sv fr c →
    Fit n sv fr (Arbiter.contactStep n sv fr a b c).2.2 ∧
    κ.goal (Arbiter.contactStep n sv fr a b c).2.2 = κ.goal c ∧
    κ.load (Arbiter.contactStep n sv fr a b c).2.2 = max (κ.load c + (κ.goal c - partSpeed n c.r1 c.r2 (κ.flow a) (κ.flow b)) * c.nMass) 0 ∧
    κ.flow (Arbiter.contactStep n sv fr a b c).1 = κ.flow a - (κ.load (Arbiter.contactStep n sv fr a b c).2.2 - κ.load c) • pushed n c.r1 a.mInv a.iInv ∧
    κ.flow (Arbiter.contactStep n sv fr a b c).2.1 = κ.flow b + (κ.load (Arbiter.contactStep n sv fr a b c).2.2 - κ.load c) • pushed n c.r2 b.mInv b.iInv

theorem corrections_act : Acts (K := K) Channel.corrections fun _ _ _ _ => True := by
  intro n sv fr a b c _
  refine ⟨trivial, rfl, ?_, ?_, ?_⟩
  · simp only [Channel.corrections, Arbiter.contactStep, partSpeed, V2.dot, V2.sub, V2.add, V2.scale, V2.perp]
    congr 3
    ring
  · simp only [Channel.corrections, Arbiter.contactStep, pushed, applyBiasImpulses, applyImpulses, V2.scale]
    ext <;> simp <;> ring
  · simp only [Channel.corrections, Arbiter.contactStep, pushed, applyBiasImpulses, applyImpulses, V2.scale]
    ext <;> simp <;> ring

theorem impacts_act : Acts (K := K) Channel.impacts fun n sv fr c => sv.dot n = 0 ∧ fr = 0 ∧ c.jtAcc = 0 := by
  rintro n sv fr a b c ⟨h1, rfl, h3⟩
  have hz : (Arbiter.contactStep n sv 0 a b c).2.2.jtAcc = 0 := by
    simp only [Arbiter.contactStep, zero_mul, neg_zero]
    have := clamp_mem (c.jtAcc + -((relativeVelocity a b c.r1 c.r2).add sv).dot n.perp * c.tMass) (0 : K) 0 (le_refl _)
    exact le_antisymm this.2 this.1
  refine ⟨⟨h1, rfl, hz⟩, rfl, ?_, ?_, ?_⟩
  · simp only [Channel.impacts, Arbiter.contactStep, partSpeed, relativeVelocity]
    congr 2
    simp only [V2.dot, V2.sub, V2.add, V2.scale, V2.perp] at h1 ⊢
    linear_combination -c.nMass * h1
  all_goals
    have hz' := hz
    simp only [Arbiter.contactStep] at hz'
    simp only [Channel.impacts, Arbiter.contactStep, pushed, applyBiasImpulses, applyImpulses, hz', V2.rotate]
    simp only [h3]
    ext <;> simp <;> ring

theorem contactStep_sameBut (n sv : V2 K) (fr : K) (a b : Body K) (c : Contact K) :
    SameBut a (Arbiter.contactStep n sv fr a b c).1 ∧ SameBut b (Arbiter.contactStep n sv fr a b c).2.1 := ⟨rfl, rfl⟩

/-! ## The loops are sweeps -/

/-- How far the velocities are from `u`. -/
def away (κ : Channel K) (bs : Nat → Body K) (u : Flow K) : Flow K := fun k => κ.flow (bs k) - u k

/-- The constraint of a contact, with its impulse in the solution, and its impulse now. -/
def rowOf (μ ι : Nat → K) (u : Flow K) (p : Touch K × K) : Row K (Flow K) × K := (⟨dvec μ ι p.1, p.1.speed u - p.1.goal, p.2⟩, p.1.load)

theorem speed_away (t : Touch K) (κ : Channel K) (bs : Nat → Body K) (u : Flow K) :
    t.speed (away κ bs u) = partSpeed t.n t.r1 t.r2 (κ.flow (bs t.ia)) (κ.flow (bs t.ib)) - t.speed u := by
  simp only [Touch.speed, partSpeed, away, Prod.fst_sub, Prod.snd_sub]
  ring

/-- The contact is prepared for bodies of these masses, and pushes. -/
def Prime (κ : Channel K) (μ ι : Nat → K) (l : Link (Arbiter K)) (c : Contact K) : Prop :=
  0 ≤ κ.load c ∧ ∃ k, 0 < k ∧ c.nMass = 1 / k ∧ k = μ l.ia + ι l.ia * (c.r1.cross l.it.normal) ^ 2 + (μ l.ib + ι l.ib * (c.r2.cross l.it.normal) ^ 2)

theorem contact_sweep {κ : Channel K} {Fit : V2 K → V2 K → K → Contact K → Prop} (act : Acts κ Fit) {N : Nat} {μ ι : Nat → K} {u : Flow K} {l : Link (Arbiter K)}
    (ha : l.ia < N) (hb : l.ib < N) (hne : l.ia ≠ l.ib) (hn : l.it.normal.x ^ 2 + l.it.normal.y ^ 2 = 1) {sv : V2 K} {fr : K} {c : Contact K} (hc : Fit l.it.normal sv fr c)
    (hp : Prime κ μ ι l c) {bs : Nat → Body K} (hm : ∀ k, (bs k).mInv = μ k ∧ (bs k).iInv = ι k) (hr : Reach μ ι (away κ bs u)) (ls : K) :
    let s := Arbiter.contactStep l.it.normal sv fr (bs l.ia) (bs l.ib) c
    let r := rowOf μ ι u (touchOf κ l c, ls)
    κ.load s.2.2 = hit (form N μ ι) r.1 (away κ bs u) r.2 ∧
    away κ (putPair bs l.ia l.ib s.1 s.2.1) u = away κ bs u + (κ.load s.2.2 - κ.load c) • r.1.d := by
  intro s r
  obtain ⟨a1, a2, a3, a4, a5⟩ := act l.it.normal sv fr (bs l.ia) (bs l.ib) c hc
  obtain ⟨p1, k, k0, k1, k2⟩ := hp
  constructor
  · rw [a3]
    have e1 := form_dvec (t := touchOf κ l c) (N := N) ha hb hne hr
    have e2 : form N μ ι (dvec μ ι (touchOf κ l c)) (dvec μ ι (touchOf κ l c)) = k := (form_self (t := touchOf κ l c) (N := N) ha hb hne hn).trans k2.symm
    rw [speed_away] at e1
    show max _ 0 = max (κ.load c - (form N μ ι (dvec μ ι (touchOf κ l c)) (away κ bs u) + ((touchOf κ l c).speed u - κ.goal c)) /
      form N μ ι (dvec μ ι (touchOf κ l c)) (dvec μ ι (touchOf κ l c))) 0
    rw [e1, e2, k1]
    simp only [touchOf]
    congr 1
    rw [one_div, div_eq_mul_inv]
    ring
  · funext j
    simp only [away, putPair, Pi.add_apply, Pi.smul_apply, r, rowOf, dvec, Touch.push, touchOf]
    by_cases h1 : j = l.ia
    · subst h1
      rw [if_pos rfl, if_neg hne, if_pos rfl, a4, (hm _).1, (hm _).2]
      module
    · rw [if_neg h1, if_neg h1]
      by_cases h2 : j = l.ib
      · subst h2
        rw [if_pos rfl, if_pos rfl, a5, (hm _).1, (hm _).2]
        module
      · rw [if_neg h2, if_neg h2, smul_zero, add_zero]

theorem putPair_over (bs : Nat → Body K) (ia ib : Nat) (a b a' b' : Body K) : putPair (putPair bs ia ib a b) ia ib a' b' = putPair bs ia ib a' b' := by
  funext k
  simp only [putPair]
  split_ifs <;> rfl

theorem loop_sweep {κ : Channel K} {Fit : V2 K → V2 K → K → Contact K → Prop} (act : Acts κ Fit) {N : Nat} {μ ι : Nat → K} {u : Flow K} {l : Link (Arbiter K)}
    (ha : l.ia < N) (hb : l.ib < N) (hne : l.ia ≠ l.ib) (hn : l.it.normal.x ^ 2 + l.it.normal.y ^ 2 = 1) (sv : V2 K) (fr : K) (cs : List (Contact K)) :
    ∀ (P : List (Touch K × K)) (bs : Nat → Body K), P.map Prod.fst = cs.map (touchOf κ l) → (∀ k, (bs k).mInv = μ k ∧ (bs k).iInv = ι k) →
    (∀ c ∈ cs, Fit l.it.normal sv fr c ∧ Prime κ μ ι l c) → Reach μ ι (away κ bs u) →
    ∃ P' : List (Touch K × K), P'.map Prod.fst = (Arbiter.impulseLoop l.it.normal sv fr cs (bs l.ia) (bs l.ib)).2.2.map (touchOf κ l) ∧
      (away κ (putPair bs l.ia l.ib (Arbiter.impulseLoop l.it.normal sv fr cs (bs l.ia) (bs l.ib)).1 (Arbiter.impulseLoop l.it.normal sv fr cs (bs l.ia) (bs l.ib)).2.1) u,
        P'.map (rowOf μ ι u)) = sweep (form N μ ι) (P.map (rowOf μ ι u)) (away κ bs u) ∧
      (∀ k, SameBut (bs k) (putPair bs l.ia l.ib (Arbiter.impulseLoop l.it.normal sv fr cs (bs l.ia) (bs l.ib)).1 (Arbiter.impulseLoop l.it.normal sv fr cs (bs l.ia) (bs l.ib)).2.1 k)) ∧
      (∀ c ∈ (Arbiter.impulseLoop l.it.normal sv fr cs (bs l.ia) (bs l.ib)).2.2, Fit l.it.normal sv fr c ∧ Prime κ μ ι l c) ∧
      Reach μ ι (away κ (putPair bs l.ia l.ib (Arbiter.impulseLoop l.it.normal sv fr cs (bs l.ia) (bs l.ib)).1 (Arbiter.impulseLoop l.it.normal sv fr cs (bs l.ia) (bs l.ib)).2.1) u) := by
  induction cs with
  | nil =>
    intro P bs hP hm hc hr
    have hP' : P = [] := by simpa using hP
    have e : putPair bs l.ia l.ib (bs l.ia) (bs l.ib) = bs := by
      funext k; simp only [putPair]; split_ifs with h1 h2
      · rw [h1]
      · rw [h2]
      · rfl
    refine ⟨[], by simp [Arbiter.impulseLoop], ?_, ?_, by simp [Arbiter.impulseLoop], ?_⟩
    · simp only [Arbiter.impulseLoop, e, hP']; rfl
    · intro k; simp only [Arbiter.impulseLoop, e]; rfl
    · simp only [Arbiter.impulseLoop, e]; exact hr
  | cons c cs ih =>
    intro P bs hP hm hc hr
    obtain ⟨p, P, rfl, hp, hP1⟩ : ∃ p P', P = p :: P' ∧ p.1 = touchOf κ l c ∧ P'.map Prod.fst = cs.map (touchOf κ l) := by
      cases P with
      | nil => simp at hP
      | cons p P => simp only [List.map_cons, List.cons.injEq] at hP; exact ⟨p, P, rfl, hP⟩
    obtain ⟨t, ls⟩ := p
    simp only at hp
    subst hp
    obtain ⟨c1, c2⟩ := hc c (by simp)
    obtain ⟨s1, s2⟩ := contact_sweep act ha hb hne hn c1 c2 hm hr ls
    obtain ⟨g1, g2, g3, -, -⟩ := act l.it.normal sv fr (bs l.ia) (bs l.ib) c c1
    obtain ⟨q1, q2⟩ := contactStep_sameBut l.it.normal sv fr (bs l.ia) (bs l.ib) c
    set s := Arbiter.contactStep l.it.normal sv fr (bs l.ia) (bs l.ib) c with hs
    set bs1 := putPair bs l.ia l.ib s.1 s.2.1 with hbs1
    have b1 : bs1 l.ia = s.1 := by simp [hbs1, putPair]
    have b2 : bs1 l.ib = s.2.1 := by simp [hbs1, putPair, hne.symm]
    have same : ∀ k, SameBut (bs k) (bs1 k) := by
      intro k
      simp only [hbs1, putPair]
      split_ifs with h1 h2
      · rw [h1]; exact q1
      · rw [h2]; exact q2
      · rfl
    have hm1 : ∀ k, (bs1 k).mInv = μ k ∧ (bs1 k).iInv = ι k := fun k => ⟨(same k).masses.2.1.trans (hm k).1, (same k).masses.2.2.2.1.trans (hm k).2⟩
    have hr1 : Reach μ ι (away κ bs1 u) := by
      rw [s2]; exact hr.add (dvec_reach _ _ _) _
    obtain ⟨P', i1, i2, i3, i4, i5⟩ := ih P bs1 hP1 hm1 (fun c hc' => hc c (by simp [hc'])) hr1
    rw [b1, b2] at i1 i2 i3 i4 i5
    have tw : ∀ a b, putPair bs1 l.ia l.ib a b = putPair bs l.ia l.ib a b := putPair_over bs l.ia l.ib s.1 s.2.1
    simp only [tw] at i2 i3 i5
    have pr : Prime κ μ ι l s.2.2 := ⟨by rw [g3]; exact le_max_right _ _, c2.2⟩
    refine ⟨(touchOf κ l s.2.2, ls) :: P', ?_, ?_, ?_, ?_, ?_⟩
    · simp only [Arbiter.impulseLoop, List.map_cons, i1, ← hs]
    · simp only [Arbiter.impulseLoop, List.map_cons, ← hs]
      have h2 := congrArg Prod.snd i2
      have h1 := congrArg Prod.fst i2
      simp only at h1 h2
      rw [h1, h2]
      have er : (rowOf μ ι u (touchOf κ l s.2.2, ls)) = ((rowOf μ ι u (touchOf κ l c, ls)).1, κ.load s.2.2) := by
        simp only [rowOf, touchOf, g2]
        rfl
      rw [er]
      simp only [sweep]
      rw [← s1]
      have el : (rowOf μ ι u (touchOf κ l c, ls)).2 = κ.load c := rfl
      rw [el, ← s2]
    · simp only [Arbiter.impulseLoop, ← hs]
      exact fun k => (same k).trans (i3 k)
    · intro c' hc'
      simp only [Arbiter.impulseLoop, List.mem_cons, ← hs] at hc'
      rcases hc' with rfl | hc'
      · exact ⟨g1, pr⟩
      · exact i4 c' hc'
    · simp only [Arbiter.impulseLoop, ← hs]
      exact i5

theorem sweep_append {V : Type} [AddCommGroup V] [Module K V] (B : V →ₗ[K] V →ₗ[K] K) (ps qs : List (Row K V × K)) : ∀ x,
    sweep B (ps ++ qs) x = ((sweep B qs (sweep B ps x).1).1, (sweep B ps x).2 ++ (sweep B qs (sweep B ps x).1).2) := by
  induction ps with
  | nil => intro x; rfl
  | cons p ps ih => intro x; simp only [List.cons_append, sweep, ih]

/-- The collision is prepared. -/
structure PrimeLink (κ : Channel K) (Fit : V2 K → V2 K → K → Contact K → Prop) (N : Nat) (μ ι : Nat → K) (l : Link (Arbiter K)) : Prop where
  ia : l.ia < N
  ib : l.ib < N
  ne : l.ia ≠ l.ib
  unit : l.it.normal.x ^ 2 + l.it.normal.y ^ 2 = 1
  ok : ∀ c ∈ l.it.contacts, Fit l.it.normal l.it.surfaceVr l.it.u c ∧ Prime κ μ ι l c

theorem links_sweep {κ : Channel K} {Fit : V2 K → V2 K → K → Contact K → Prop} (act : Acts κ Fit) {N : Nat} {μ ι : Nat → K} {u : Flow K} (arbs : List (Link (Arbiter K))) :
    ∀ (P : List (Touch K × K)) (bs : Nat → Body K), P.map Prod.fst = allTouches κ arbs → (∀ k, (bs k).mInv = μ k ∧ (bs k).iInv = ι k) →
    (∀ l ∈ arbs, PrimeLink κ Fit N μ ι l) → Reach μ ι (away κ bs u) →
    ∃ P' : List (Touch K × K), P'.map Prod.fst = allTouches κ (linkLoop (fun arb a b => arb.applyImpulse a b) arbs bs).2 ∧
      (away κ (linkLoop (fun arb a b => arb.applyImpulse a b) arbs bs).1 u, P'.map (rowOf μ ι u)) = sweep (form N μ ι) (P.map (rowOf μ ι u)) (away κ bs u) ∧
      (∀ k, SameBut (bs k) ((linkLoop (fun arb a b => arb.applyImpulse a b) arbs bs).1 k)) ∧
      (∀ l ∈ (linkLoop (fun arb a b => arb.applyImpulse a b) arbs bs).2, PrimeLink κ Fit N μ ι l) ∧
      Reach μ ι (away κ (linkLoop (fun arb a b => arb.applyImpulse a b) arbs bs).1 u) := by
  induction arbs with
  | nil =>
    intro P bs hP hm hl hr
    have hP' : P = [] := by simpa [allTouches] using hP
    refine ⟨[], rfl, by rw [hP']; rfl, fun k => rfl, by simp [linkLoop], hr⟩
  | cons l ls ih =>
    intro P bs hP hm hl hr
    have hP' : P.map Prod.fst = l.it.contacts.map (touchOf κ l) ++ allTouches κ ls := by rw [hP]; simp [allTouches]
    obtain ⟨P1, P2, rfl, h1, h2⟩ := List.map_eq_append_iff.1 hP'
    obtain ⟨g1, g2, g3, g4, g5⟩ := hl l (by simp)
    obtain ⟨P1', j1, j2, j3, j4, j5⟩ := loop_sweep act g1 g2 g3 g4 l.it.surfaceVr l.it.u l.it.contacts P1 bs h1 hm g5 hr
    simp only [linkLoop, Arbiter.applyImpulse]
    set t := Arbiter.impulseLoop l.it.normal l.it.surfaceVr l.it.u l.it.contacts (bs l.ia) (bs l.ib) with ht
    set bs1 := putPair bs l.ia l.ib t.1 t.2.1
    obtain ⟨P2', i1, i2, i3, i4, i5⟩ := ih P2 bs1 h2 (fun k => ⟨(j3 k).masses.2.1.trans (hm k).1, (j3 k).masses.2.2.2.1.trans (hm k).2⟩)
      (fun l hl' => hl l (by simp [hl'])) j5
    refine ⟨P1' ++ P2', ?_, ?_, fun k => (j3 k).trans (i3 k), ?_, i5⟩
    · rw [List.map_append, j1, i1]
      simp only [allTouches, List.flatMap_cons]
      rfl
    · rw [List.map_append, List.map_append, sweep_append, ← j2]
      dsimp only
      rw [← i2]
      rfl
    · intro m hm'
      rcases List.mem_cons.1 hm' with rfl | hm'
      · exact ⟨g1, g2, g3, g4, j4⟩
      · exact i4 m hm'

theorem joint_flow (M : Mth K) (dt : K) (jt : Joint K) (a b : Body K) :
    Channel.corrections.flow (jt.applyImpulse M a b dt).1 = Channel.corrections.flow a ∧ Channel.corrections.flow (jt.applyImpulse M a b dt).2.1 = Channel.corrections.flow b := by
  cases jt with
  | pin j => exact ⟨rfl, rfl⟩
  | slide j => simp only [Joint.applyImpulse, SlideJoint.applyImpulse]; split <;> exact ⟨rfl, rfl⟩
  | pivot j => exact ⟨rfl, rfl⟩
  | groove j => exact ⟨rfl, rfl⟩
  | gear j => exact ⟨rfl, rfl⟩
  | ratchet j => simp only [Joint.applyImpulse, RatchetJoint.applyImpulse]; split <;> exact ⟨rfl, rfl⟩
  | rotaryLimit j => simp only [Joint.applyImpulse, RotaryLimitJoint.applyImpulse]; split <;> exact ⟨rfl, rfl⟩
  | motor j => exact ⟨rfl, rfl⟩
  | spring j => exact ⟨rfl, rfl⟩
  | rotarySpring j => exact ⟨rfl, rfl⟩

theorem joints_flow {κ : Channel K} {f : Joint K → Body K → Body K → Body K × Body K × Joint K} {J : Joint K → Prop}
    (hf : ∀ jt a b, J jt → κ.flow (f jt a b).1 = κ.flow a ∧ κ.flow (f jt a b).2.1 = κ.flow b ∧ J (f jt a b).2.2) (js : List (Link (Joint K))) :
    ∀ bs : Nat → Body K, (∀ l ∈ js, J l.it) → (∀ k, κ.flow ((linkLoop f js bs).1 k) = κ.flow (bs k)) ∧ ∀ l ∈ (linkLoop f js bs).2, J l.it := by
  induction js with
  | nil => intro bs _; exact ⟨fun _ => rfl, by simp [linkLoop]⟩
  | cons l ls ih =>
    intro bs h
    obtain ⟨h1, h2, h3⟩ := hf l.it (bs l.ia) (bs l.ib) (h l (by simp))
    obtain ⟨i1, i2⟩ := ih (putPair bs l.ia l.ib (f l.it (bs l.ia) (bs l.ib)).1 (f l.it (bs l.ia) (bs l.ib)).2.1) fun l hl => h l (by simp [hl])
    refine ⟨fun k => ?_, ?_⟩
    · simp only [linkLoop]
      rw [i1 k]
      simp only [putPair]
      split_ifs with e1 e2
      · rw [h1, e1]
      · rw [h2, e2]
      · rfl
    · intro m hm
      simp only [linkLoop, List.mem_cons] at hm
      rcases hm with rfl | hm
      · exact h3
      · exact i2 m hm

/-- What the iterations need: joints that leave these velocities alone. -/
structure Unmoving (κ : Channel K) (M : Mth K) (dt : K) (J : Joint K → Prop) : Prop where
  keeps : ∀ jt a b, J jt → κ.flow (jt.applyImpulse M a b dt).1 = κ.flow a ∧ κ.flow (jt.applyImpulse M a b dt).2.1 = κ.flow b ∧ J (jt.applyImpulse M a b dt).2.2

theorem iterate_turn {κ : Channel K} {Fit : V2 K → V2 K → K → Contact K → Prop} (act : Acts κ Fit) {M : Mth K} {dt : K} {J : Joint K → Prop} (hq : Unmoving κ M dt J)
    {N : Nat} {μ ι : Nat → K} {u : Flow K} {s : SolverState K} {P : List (Touch K × K)} (hP : P.map Prod.fst = allTouches κ s.arbs)
    (hm : ∀ k, (s.bodies k).mInv = μ k ∧ (s.bodies k).iInv = ι k) (hl : ∀ l ∈ s.arbs, PrimeLink κ Fit N μ ι l) (hr : Reach μ ι (away κ s.bodies u))
    (hj : ∀ l ∈ s.joints, J l.it) (n : Nat) :
    ∃ P' : List (Touch K × K), P'.map Prod.fst = allTouches κ ((SolverState.iterate M dt)^[n] s).arbs ∧
      (away κ ((SolverState.iterate M dt)^[n] s).bodies u, P'.map (rowOf μ ι u)) = (turn (form N μ ι))^[n] (away κ s.bodies u, P.map (rowOf μ ι u)) ∧
      (∀ k, (((SolverState.iterate M dt)^[n] s).bodies k).mInv = μ k ∧ (((SolverState.iterate M dt)^[n] s).bodies k).iInv = ι k) ∧
      (∀ l ∈ ((SolverState.iterate M dt)^[n] s).arbs, PrimeLink κ Fit N μ ι l) ∧ Reach μ ι (away κ ((SolverState.iterate M dt)^[n] s).bodies u) ∧
      ∀ l ∈ ((SolverState.iterate M dt)^[n] s).joints, J l.it := by
  induction n with
  | zero => exact ⟨P, hP, rfl, hm, hl, hr, hj⟩
  | succ n ih =>
    rw [Function.iterate_succ_apply', Function.iterate_succ_apply']
    obtain ⟨P1, i1, i2, i3, i4, i5, i6⟩ := ih
    rw [← i2]
    generalize (SolverState.iterate M dt)^[n] s = t at *
    obtain ⟨P', j1, j2, j3, j4, j5⟩ := links_sweep act t.arbs P1 t.bodies i1 i3 i4 i5
    obtain ⟨q1, q2⟩ := joints_flow (κ := κ) (f := fun jt a b => jt.applyImpulse M a b dt) hq.keeps t.joints (linkLoop (fun arb a b => arb.applyImpulse a b) t.arbs t.bodies).1 i6
    have sb : ∀ k, SameBut (t.bodies k) ((t.iterate M dt).bodies k) := fun k =>
      (j3 k).trans (linkLoop_place (fun jt a b => jt.applyImpulse M a b dt) (fun x a b => jointNudge M dt x a b) t.joints _ k)
    have ea : away κ (t.iterate M dt).bodies u = away κ (linkLoop (fun arb a b => arb.applyImpulse a b) t.arbs t.bodies).1 u := by
      funext k
      simp only [away, SolverState.iterate]
      rw [q1 k]
    refine ⟨P', j1, ?_, fun k => ⟨(sb k).masses.2.1.trans (i3 k).1, (sb k).masses.2.2.2.1.trans (i3 k).2⟩, j4, by rw [ea]; exact j5, q2⟩
    rw [ea, j2]
    rfl

/-! ## The theorems -/

theorem bound_links (arbs : List (Link (Arbiter K))) : ∃ N, ∀ l ∈ arbs, l.ia < N ∧ l.ib < N := by
  induction arbs with
  | nil => exact ⟨0, by simp⟩
  | cons l ls ih =>
    obtain ⟨N, h⟩ := ih
    refine ⟨max N (max (l.ia + 1) (l.ib + 1)), fun m hm => ?_⟩
    rcases List.mem_cons.1 hm with rfl | hm
    · omega
    · have := h m hm; omega

theorem start_place {κ : Channel K} {s : SolverState K} {P : List (Touch K × K)} {u : Flow K} (h : Solves κ s P u) :
    away κ s.bodies u = place (P.map (rowOf (fun k => (s.bodies k).mInv) (fun k => (s.bodies k).iInv) u)) := by
  funext k
  simp only [away, h.moved k]
  simp only [place, List.map_map]
  have : ∀ Q : List (Touch K × K), (List.map ((fun p : Row K (Flow K) × K => (p.2 - p.1.ls) • p.1.d) ∘ rowOf (fun k => (s.bodies k).mInv) (fun k => (s.bodies k).iInv) u) Q).sum k =
      -(Q.map fun p => (p.2 - p.1.load) • p.1.push (s.bodies k).mInv (s.bodies k).iInv k).sum := by
    intro Q
    induction Q with
    | nil => simp
    | cons p Q ih =>
      simp only [List.map_cons, List.sum_cons, Pi.add_apply, ih, Function.comp, rowOf, Pi.smul_apply, dvec]
      module
  rw [this]
  module

theorem place_reach {μ ι : Nat → K} {u : Flow K} (Q : List (Touch K × K)) : Reach μ ι (place (Q.map (rowOf μ ι u))) := by
  induction Q with
  | nil => exact reach_zero _ _
  | cons p Q ih =>
    simp only [place, List.map_cons, List.sum_cons] at ih ⊢
    rw [add_comm]
    exact ih.add (dvec_reach _ _ _) _

theorem touch_links {κ : Channel K} {arbs : List (Link (Arbiter K))} {t : Touch K} (h : t ∈ allTouches κ arbs) : ∃ l ∈ arbs, ∃ c ∈ l.it.contacts, t = touchOf κ l c := by
  obtain ⟨l, hl, h⟩ := List.mem_flatMap.1 h
  obtain ⟨c, hc, rfl⟩ := List.mem_map.1 h
  exact ⟨l, hl, c, hc, rfl⟩

theorem rows_good {κ : Channel K} {Fit : V2 K → V2 K → K → Contact K → Prop} {N : Nat} {μ ι : Nat → K} {arbs : List (Link (Arbiter K))} {P : List (Touch K × K)}
    (hP : P.map Prod.fst = allTouches κ arbs) (hl : ∀ l ∈ arbs, PrimeLink κ Fit N μ ι l) : ∀ p ∈ P, 0 < form N μ ι (dvec μ ι p.1) (dvec μ ι p.1) ∧ 0 ≤ p.1.load ∧
      p.1.ia < N ∧ p.1.ib < N ∧ p.1.ia ≠ p.1.ib := by
  intro p hp
  have : p.1 ∈ allTouches κ arbs := by rw [← hP]; exact List.mem_map.2 ⟨p, hp, rfl⟩
  obtain ⟨l, m, c, hc, e⟩ := touch_links this
  obtain ⟨g1, g2, g3, g4, g5⟩ := hl l m
  obtain ⟨-, p1, k, k0, k1, k2⟩ := g5 c hc
  rw [e]
  refine ⟨?_, p1, g1, g2, g3⟩
  rw [form_self (t := touchOf κ l c) g1 g2 g3 g4]
  exact k2 ▸ k0

theorem converge_at [Archimedean K] {κ : Channel K} {Fit : V2 K → V2 K → K → Contact K → Prop} (act : Acts κ Fit) {M : Mth K} {dt : K} {J : Joint K → Prop} (hq : Unmoving κ M dt J)
    {s : SolverState K} (hm : ∀ k, 0 ≤ (s.bodies k).mInv ∧ 0 ≤ (s.bodies k).iInv)
    (ha : ∀ l ∈ s.arbs, Primed κ (fun k => (s.bodies k).mInv) (fun k => (s.bodies k).iInv) l ∧ ∀ c ∈ l.it.contacts, Fit l.it.normal l.it.surfaceVr l.it.u c)
    (hj : ∀ l ∈ s.joints, J l.it) {P : List (Touch K × K)} {u : Flow K} (hs : Solves κ s P u) :
    ∀ ε > 0, ∃ n0, ∀ n ≥ n0, ∀ k, |(κ.flow (((SolverState.iterate M dt)^[n] s).bodies k)).1 - (u k).1| ≤ ε ∧
      |(κ.flow (((SolverState.iterate M dt)^[n] s).bodies k)).2.1 - (u k).2.1| ≤ ε ∧ |(κ.flow (((SolverState.iterate M dt)^[n] s).bodies k)).2.2 - (u k).2.2| ≤ ε := by
  set μ := fun k => (s.bodies k).mInv with hμ
  set ι := fun k => (s.bodies k).iInv with hι
  obtain ⟨N, hN⟩ := bound_links s.arbs
  have hl : ∀ l ∈ s.arbs, PrimeLink κ Fit N μ ι l := fun l m =>
    ⟨(hN l m).1, (hN l m).2, (ha l m).1.ne, (ha l m).1.unit, fun c hc => ⟨(ha l m).2 c hc, (ha l m).1.contacts c hc⟩⟩
  have h0 := start_place hs
  have hr : Reach μ ι (away κ s.bodies u) := by rw [h0]; exact place_reach P
  have rg := rows_good hs.all hl
  have good : ∀ p ∈ P.map (rowOf μ ι u), Good (form N μ ι) p.1 ∧ 0 ≤ p.2 := by
    intro q hq
    obtain ⟨p, hp, rfl⟩ := List.mem_map.1 hq
    obtain ⟨g1, g2, -⟩ := rg p hp
    refine ⟨⟨g1, sub_nonneg.2 (hs.part p hp), hs.push p hp, ?_⟩, g2⟩
    show p.2 * (p.1.speed u - p.1.goal) = 0
    rcases (hs.push p hp).eq_or_lt with h | h
    · rw [← h, zero_mul]
    · rw [hs.exact p hp h, sub_self, mul_zero]
  have conv := converges (B := form N μ ι) (form_sym N μ ι) (form_nonneg (fun k => (hm k).1) (fun k => (hm k).2)) (away κ s.bodies u, P.map (rowOf μ ι u)) h0 good
  set S : K := ∑ k ∈ Finset.range N, (μ k + ι k) + 1 with hS
  have S1 : 1 ≤ S := by
    have : 0 ≤ ∑ k ∈ Finset.range N, (μ k + ι k) := Finset.sum_nonneg fun k _ => add_nonneg (hm k).1 (hm k).2
    linarith
  intro ε hε
  obtain ⟨n0, hn0⟩ := conv (ε ^ 2 / S) (by positivity)
  refine ⟨n0, fun n hn k => ?_⟩
  have fin := hn0 n hn
  obtain ⟨P', -, e2, -, -, e5, -⟩ := iterate_turn act hq hs.all (fun k => ⟨rfl, rfl⟩) hl hr hj n
  obtain ⟨t1, t2⟩ := turn_place (B := form N μ ι) (away κ s.bodies u, P.map (rowOf μ ι u)) h0 n
  rw [← e2] at fin t1 t2
  dsimp only at fin t1 t2
  set x := away κ ((SolverState.iterate M dt)^[n] s).bodies u with hx
  suffices H : |(x k).1| ≤ ε ∧ |(x k).2.1| ≤ ε ∧ |(x k).2.2| ≤ ε by
    simpa only [hx, away, Prod.fst_sub, Prod.snd_sub] using H
  by_cases hk : k < N
  · rw [form_apply] at fin
    set f := fun k => (x k).1 * (x k).1 / μ k + (x k).2.1 * (x k).2.1 / μ k + (x k).2.2 * (x k).2.2 / ι k with hf
    have nn : ∀ j, 0 ≤ (x j).1 * (x j).1 / μ j ∧ 0 ≤ (x j).2.1 * (x j).2.1 / μ j ∧ 0 ≤ (x j).2.2 * (x j).2.2 / ι j := fun j =>
      ⟨div_nonneg (mul_self_nonneg _) (hm j).1, div_nonneg (mul_self_nonneg _) (hm j).1, div_nonneg (mul_self_nonneg _) (hm j).2⟩
    have one : f k ≤ ε ^ 2 / S := le_trans (Finset.single_le_sum (f := f) (fun j _ => by have := nn j; simp only [hf]; linarith [this.1, this.2.1, this.2.2]) (Finset.mem_range.2 hk)) fin
    have wk : μ k + ι k ≤ S := by
      have := Finset.single_le_sum (f := fun k => μ k + ι k) (s := Finset.range N) (fun j _ => add_nonneg (hm j).1 (hm j).2) (Finset.mem_range.2 hk)
      linarith
    have small : ∀ w y : K, 0 ≤ w → w ≤ S → (w = 0 → y = 0) → y * y / w ≤ ε ^ 2 / S → |y| ≤ ε := by
      intro w y hw hwS h0 h
      rcases hw.eq_or_lt with hz | hpos
      · rw [h0 hz.symm, abs_zero]; exact hε.le
      · rw [div_le_iff₀ hpos] at h
        have : ε ^ 2 / S * w ≤ ε ^ 2 := by
          rw [div_mul_eq_mul_div, div_le_iff₀ (by linarith)]
          exact mul_le_mul_of_nonneg_left hwS (sq_nonneg _)
        exact abs_le_of_sq_le_sq (by nlinarith) hε.le
    obtain ⟨n1, n2, n3⟩ := nn k
    simp only [hf] at one
    refine ⟨small (μ k) _ (hm k).1 (by linarith [(hm k).2]) (fun h => ((e5 k).1 h).1) (by linarith), small (μ k) _ (hm k).1 (by linarith [(hm k).2]) (fun h => ((e5 k).1 h).2) (by linarith),
      small (ι k) _ (hm k).2 (by linarith [(hm k).1]) (e5 k).2 (by linarith)⟩
  · have hz : x k = 0 := by
      rw [t1]
      have : ∀ Q : List (Row K (Flow K) × K), (∀ q ∈ Q, q.1.d k = 0) → place Q k = 0 := by
        intro Q
        induction Q with
        | nil => intro _; rfl
        | cons q Q ih =>
          intro h
          have i := ih fun q hq => h q (by simp [hq])
          simp only [place, List.map_cons, List.sum_cons, Pi.add_apply, Pi.smul_apply] at i ⊢
          rw [i, h q (by simp), smul_zero, add_zero]
      refine this _ fun q hq => ?_
      have : q.1 ∈ (P.map (rowOf μ ι u)).map Prod.fst := by rw [← t2]; exact List.mem_map.2 ⟨q, hq, rfl⟩
      obtain ⟨q', hq', e⟩ := List.mem_map.1 this
      obtain ⟨p, hp, rfl⟩ := List.mem_map.1 hq'
      rw [← e]
      obtain ⟨-, -, g3, g4, -⟩ := rg p hp
      simp only [rowOf, dvec, Touch.push]
      rw [if_neg (by omega), if_neg (by omega)]
    rw [hz]
    simp [hε.le]

/-- No friction, no sideways impulse left over from earlier, no conveyor pushing along the normal. -/
def Spec.Smooth (l : Link (Arbiter K)) : Prop := l.it.u = 0 ∧ l.it.surfaceVr.dot l.it.normal = 0 ∧ ∀ c ∈ l.it.contacts, c.jtAcc = 0

/-- Two flows of velocities differ nowhere by more than `ε`. -/
def Spec.FlowNear (ε : K) (x y : K × K × K) : Prop := |x.1 - y.1| ≤ ε ∧ |x.2.1 - y.2.1| ≤ ε ∧ |x.2.2 - y.2.2| ≤ ε

/-- Where the velocities that correct overlaps have a solution, the iterations come as near to it as one likes, whatever joints and friction there are. -/
theorem C128_corrections [Archimedean K] (M : Mth K) (dt : K) (s : SolverState K) (hm : ∀ k, 0 ≤ (s.bodies k).mInv ∧ 0 ≤ (s.bodies k).iInv)
    (ha : ∀ l ∈ s.arbs, Primed .corrections (fun k => (s.bodies k).mInv) (fun k => (s.bodies k).iInv) l) (P : List (Touch K × K)) (u : Flow K) (hs : Solves .corrections s P u) :
    ∀ ε > 0, ∃ n0, ∀ n ≥ n0, ∀ k, FlowNear ε (Channel.corrections.flow (((SolverState.iterate M dt)^[n] s).bodies k)) (u k) :=
  converge_at corrections_act (J := fun _ => True) ⟨fun jt a b _ => ⟨(joint_flow M dt jt a b).1, (joint_flow M dt jt a b).2, trivial⟩⟩ hm
    (fun l h => ⟨ha l h, fun _ _ => trivial⟩) (fun _ _ => trivial) hs

/-- Where the velocities have a solution, the iterations come as near to it as one likes, without friction and joints. -/
theorem C128_impacts [Archimedean K] (M : Mth K) (dt : K) (s : SolverState K) (hm : ∀ k, 0 ≤ (s.bodies k).mInv ∧ 0 ≤ (s.bodies k).iInv)
    (ha : ∀ l ∈ s.arbs, Primed .impacts (fun k => (s.bodies k).mInv) (fun k => (s.bodies k).iInv) l ∧ Smooth l) (hj : s.joints = [])
    (P : List (Touch K × K)) (u : Flow K) (hs : Solves .impacts s P u) :
    ∀ ε > 0, ∃ n0, ∀ n ≥ n0, ∀ k, FlowNear ε (Channel.impacts.flow (((SolverState.iterate M dt)^[n] s).bodies k)) (u k) :=
  converge_at impacts_act (J := fun _ => False) ⟨fun jt a b h => h.elim⟩ hm
    (fun l h => ⟨(ha l h).1, fun c hc => ⟨(ha l h).2.2.1, (ha l h).2.1, (ha l h).2.2.2 c hc⟩⟩) (by simp [hj]) hs

theorem zip_same : ∀ {P Q : List (Touch K × K)}, P.map Prod.fst = Q.map Prod.fst → ∀ z ∈ P.zip Q, z.1.1 = z.2.1
  | [], _, _, z, hz => by simp at hz
  | _ :: _, [], h, z, hz => by simp at hz
  | p :: P, q :: Q, h, z, hz => by
    simp only [List.map_cons, List.cons.injEq] at h
    rcases List.mem_cons.1 hz with rfl | hz
    · exact h.1
    · exact zip_same h.2 z hz

theorem zip_place (μ ι : Nat → K) (u : Flow K) (k : Nat) : ∀ {P Q : List (Touch K × K)}, P.map Prod.fst = Q.map Prod.fst →
    place ((P.zip Q).map fun z => ((⟨dvec μ ι z.1.1, z.1.1.speed u - z.1.1.goal, z.1.2⟩, z.2.2) : Row K (Flow K) × K)) k =
      (Q.map fun p => (p.2 - p.1.load) • p.1.push (μ k) (ι k) k).sum - (P.map fun p => (p.2 - p.1.load) • p.1.push (μ k) (ι k) k).sum
  | [], [], _ => by simp [place]
  | [], q :: Q, h => by simp at h
  | p :: P, [], h => by simp at h
  | p :: P, q :: Q, h => by
    simp only [List.map_cons, List.cons.injEq] at h
    have i := zip_place μ ι u k h.2
    simp only [place, List.zip_cons_cons, List.map_cons, List.sum_cons, Pi.add_apply, Pi.smul_apply] at i ⊢
    rw [i]
    simp only [dvec, ← h.1]
    module

/-- There is at most one solution. -/
theorem C128_unique (κ : Channel K) (s : SolverState K) (hm : ∀ k, 0 ≤ (s.bodies k).mInv ∧ 0 ≤ (s.bodies k).iInv)
    (ha : ∀ l ∈ s.arbs, Primed κ (fun k => (s.bodies k).mInv) (fun k => (s.bodies k).iInv) l) (P Q : List (Touch K × K)) (u v : Flow K) (hu : Solves κ s P u)
    (hv : Solves κ s Q v) : u = v := by
  set μ := fun k => (s.bodies k).mInv with hμ
  set ι := fun k => (s.bodies k).iInv with hι
  obtain ⟨N, hN⟩ := bound_links s.arbs
  have hl : ∀ l ∈ s.arbs, PrimeLink κ (fun _ _ _ _ => True) N μ ι l := fun l m =>
    ⟨(hN l m).1, (hN l m).2, (ha l m).ne, (ha l m).unit, fun c hc => ⟨trivial, (ha l m).contacts c hc⟩⟩
  have e : P.map Prod.fst = Q.map Prod.fst := hu.all.trans hv.all.symm
  have hx : v - u = place ((P.zip Q).map fun z => ((⟨dvec μ ι z.1.1, z.1.1.speed u - z.1.1.goal, z.1.2⟩, z.2.2) : Row K (Flow K) × K)) := by
    funext k
    rw [zip_place μ ι u k e, Pi.sub_apply, hu.moved k, hv.moved k]
    module
  have hr : Reach μ ι (v - u) := by
    have : ∀ k, (v - u) k = (away κ s.bodies u + (-1 : K) • away κ s.bodies v) k := fun k => by simp only [Pi.sub_apply, Pi.add_apply, Pi.smul_apply, away]; module
    rw [funext this]
    refine Reach.add ?_ ?_ _
    · rw [start_place hu]; exact place_reach P
    · rw [start_place hv]; exact place_reach Q
  have rg := rows_good hu.all hl
  have z := only_one (B := form N μ ι) (form_nonneg (fun k => (hm k).1) (fun k => (hm k).2)) _ _ hx ?_ ?_
  · funext k
    suffices H : (v - u) k = 0 by
      have : v k - u k = 0 := H
      exact (sub_eq_zero.1 this).symm
    by_cases hk : k < N
    · rw [form_apply] at z
      have nn : ∀ j ∈ Finset.range N, 0 ≤ ((v - u) j).1 * ((v - u) j).1 / μ j + ((v - u) j).2.1 * ((v - u) j).2.1 / μ j + ((v - u) j).2.2 * ((v - u) j).2.2 / ι j := fun j _ =>
        add_nonneg (add_nonneg (div_nonneg (mul_self_nonneg _) (hm j).1) (div_nonneg (mul_self_nonneg _) (hm j).1)) (div_nonneg (mul_self_nonneg _) (hm j).2)
      have zk := (Finset.sum_eq_zero_iff_of_nonneg nn).1 z k (Finset.mem_range.2 hk)
      have n1 := div_nonneg (mul_self_nonneg ((v - u) k).1) (hm k).1
      have n2 := div_nonneg (mul_self_nonneg ((v - u) k).2.1) (hm k).1
      have n3 := div_nonneg (mul_self_nonneg ((v - u) k).2.2) (hm k).2
      have zero : ∀ w y : K, (w = 0 → y = 0) → y * y / w = 0 → y = 0 := by
        intro w y h1 h2
        rcases div_eq_zero_iff.1 h2 with h | h
        · exact mul_self_eq_zero.1 h
        · exact h1 h
      refine Prod.ext ?_ (Prod.ext ?_ ?_)
      · exact zero (μ k) _ (fun h => ((hr k).1 h).1) (by simp only [hμ] at zk ⊢; linarith)
      · exact zero (μ k) _ (fun h => ((hr k).1 h).2) (by simp only [hμ] at zk ⊢; linarith)
      · exact zero (ι k) _ (hr k).2 (by simp only [hι] at zk ⊢; linarith)
    · have none : ∀ Q : List (Touch K × K), Q.map Prod.fst = allTouches κ s.arbs → (Q.map fun p => (p.2 - p.1.load) • p.1.push (s.bodies k).mInv (s.bodies k).iInv k).sum = 0 := by
        intro Q hQ
        refine List.sum_eq_zero fun y hy => ?_
        obtain ⟨p, hp, rfl⟩ := List.mem_map.1 hy
        obtain ⟨-, -, g3, g4, -⟩ := rows_good hQ hl p hp
        simp only [Touch.push]
        rw [if_neg (by omega), if_neg (by omega), smul_zero]
      rw [Pi.sub_apply, hu.moved k, hv.moved k, none P hu.all, none Q hv.all, sub_self]
  · intro y hy
    obtain ⟨z, hz, rfl⟩ := List.mem_map.1 hy
    have m1 := (List.of_mem_zip hz).1
    have m2 := (List.of_mem_zip hz).2
    refine ⟨⟨(rg _ m1).1, sub_nonneg.2 (hu.part _ m1), hu.push _ m1, ?_⟩, hv.push _ m2⟩
    show z.1.2 * (z.1.1.speed u - z.1.1.goal) = 0
    rcases (hu.push _ m1).eq_or_lt with h | h
    · rw [← h, zero_mul]
    · rw [hu.exact _ m1 h, sub_self, mul_zero]
  · intro y hy
    obtain ⟨z, hz, rfl⟩ := List.mem_map.1 hy
    have m1 := (List.of_mem_zip hz).1
    have m2 := (List.of_mem_zip hz).2
    have es := zip_same e z hz
    obtain ⟨-, -, g3, g4, g5⟩ := rg _ m1
    have sp : form N μ ι (dvec μ ι z.1.1) (v - u) + (z.1.1.speed u - z.1.1.goal) = z.2.1.speed v - z.2.1.goal := by
      rw [form_dvec g3 g4 g5 hr, es]
      simp only [Touch.speed, partSpeed, Pi.sub_apply, Prod.fst_sub, Prod.snd_sub]
      ring
    simp only [sp]
    refine ⟨sub_nonneg.2 (hv.part _ m2), ?_⟩
    rcases (hv.push _ m2).eq_or_lt with h | h
    · rw [← h, zero_mul]
    · rw [hv.exact _ m2 h, sub_self, mul_zero]

/-- The contacts with the impulses they have. -/
def Spec.own (κ : Channel K) (s : SolverState K) : List (Touch K × K) := (allTouches κ s.arbs).map fun t => (t, t.load)

/-- Where the collisions do nothing more, a solution is reached, and only there. -/
theorem still_at {κ : Channel K} {Fit : V2 K → V2 K → K → Contact K → Prop} (act : Acts κ Fit) {s : SolverState K}
    (ha : ∀ l ∈ s.arbs, Primed κ (fun k => (s.bodies k).mInv) (fun k => (s.bodies k).iInv) l ∧ ∀ c ∈ l.it.contacts, Fit l.it.normal l.it.surfaceVr l.it.u c) :
    ((∀ k, κ.flow ((linkLoop (fun arb a b => arb.applyImpulse a b) s.arbs s.bodies).1 k) = κ.flow (s.bodies k)) ∧
      (allTouches κ (linkLoop (fun arb a b => arb.applyImpulse a b) s.arbs s.bodies).2).map Touch.load = (allTouches κ s.arbs).map Touch.load) ↔
    Solves κ s (own κ s) fun k => κ.flow (s.bodies k) := by
  set μ := fun k => (s.bodies k).mInv with hμ
  set ι := fun k => (s.bodies k).iInv with hι
  obtain ⟨N, hN⟩ := bound_links s.arbs
  have hl : ∀ l ∈ s.arbs, PrimeLink κ Fit N μ ι l := fun l m =>
    ⟨(hN l m).1, (hN l m).2, (ha l m).1.ne, (ha l m).1.unit, fun c hc => ⟨(ha l m).2 c hc, (ha l m).1.contacts c hc⟩⟩
  set u : Flow K := fun k => κ.flow (s.bodies k) with hu
  have a0 : away κ s.bodies u = 0 := by funext k; simp [away, hu]
  have hP : (own κ s).map Prod.fst = allTouches κ s.arbs := by simp [own, Function.comp_def]
  have rg := rows_good hP hl
  obtain ⟨P', j1, j2, -, -, -⟩ := links_sweep act (u := u) s.arbs (own κ s) s.bodies hP (fun k => ⟨rfl, rfl⟩) hl (by rw [a0]; exact reach_zero _ _)
  rw [a0] at j2
  have key := sweep_still (B := form N μ ι) ((own κ s).map (rowOf μ ι u)) (by
    intro q hq
    obtain ⟨p, hp, rfl⟩ := List.mem_map.1 hq
    exact ⟨(rg p hp).1, (rg p hp).2.1⟩)
  have mid : (∀ p ∈ (own κ s).map (rowOf μ ι u), 0 ≤ p.1.ws ∧ (0 < p.2 → p.1.ws = 0)) ↔ Solves κ s (own κ s) u := by
    constructor
    · intro h
      have own_load : ∀ p ∈ own κ s, p.2 = p.1.load := by
        intro p hp
        obtain ⟨t, -, rfl⟩ := List.mem_map.1 hp
        rfl
      refine ⟨hP, fun k => ?_, fun p hp => ?_, fun p hp => ?_, fun p hp hl => ?_⟩
      · rw [List.sum_eq_zero, add_zero]
        intro y hy
        obtain ⟨p, hp, rfl⟩ := List.mem_map.1 hy
        rw [own_load p hp, sub_self, zero_smul]
      · rw [own_load p hp]; exact (rg p hp).2.1
      · exact sub_nonneg.1 (h _ (List.mem_map.2 ⟨p, hp, rfl⟩)).1
      · exact sub_eq_zero.1 ((h _ (List.mem_map.2 ⟨p, hp, rfl⟩)).2 (by rw [own_load p hp] at hl; exact hl))
    · intro h q hq
      obtain ⟨p, hp, rfl⟩ := List.mem_map.1 hq
      refine ⟨sub_nonneg.2 (h.part p hp), fun hl => sub_eq_zero.2 (h.exact p hp ?_)⟩
      obtain ⟨t, -, rfl⟩ := List.mem_map.1 hp
      exact hl
  rw [← mid, ← key]
  have j2a := congrArg Prod.fst j2
  have j2b := congrArg Prod.snd j2
  dsimp only at j2a j2b
  have loads : ∀ Q : List (Touch K × K), (Q.map (rowOf μ ι u)).map Prod.snd = (Q.map Prod.fst).map Touch.load := fun Q => by simp [rowOf, Function.comp_def]
  constructor
  · rintro ⟨-, h2⟩
    rw [← j1, ← hP, ← loads, ← loads, j2b] at h2
    have r := sweep_rows (B := form N μ ι) ((own κ s).map (rowOf μ ι u)) 0
    refine List.ext_getElem? fun i => ?_
    have e1 := congrArg (fun l => l[i]?) r
    have e2 := congrArg (fun l => l[i]?) h2
    rw [List.getElem?_map, List.getElem?_map] at e1 e2
    generalize (sweep (form N μ ι) (List.map (rowOf μ ι u) (own κ s)) 0).2[i]? = y at e1 e2 ⊢
    generalize (List.map (rowOf μ ι u) (own κ s))[i]? = z at e1 e2 ⊢
    cases y <;> cases z
    · rfl
    · simp at e1
    · simp at e1
    · simp only [Option.map_some, Option.some.injEq] at e1 e2
      rw [Prod.ext e1 e2]
  · intro h
    have h0 := sweep_still_place (B := form N μ ι) _ h
    refine ⟨fun k => ?_, ?_⟩
    · rw [← j2a] at h0
      have := congrFun h0 k
      simpa only [away, hu, Pi.zero_apply, sub_eq_zero] using this
    · rw [← j1, ← hP, ← loads, ← loads, j2b, h]

/-- A pass over the collisions changes neither the velocities that correct overlaps nor the impulses behind them exactly where these already solve the contacts. -/
theorem C128_still (s : SolverState K) (ha : ∀ l ∈ s.arbs, Primed .corrections (fun k => (s.bodies k).mInv) (fun k => (s.bodies k).iInv) l) :
    ((∀ k, Channel.corrections.flow ((linkLoop (fun arb a b => arb.applyImpulse a b) s.arbs s.bodies).1 k) = Channel.corrections.flow (s.bodies k)) ∧
      (allTouches .corrections (linkLoop (fun arb a b => arb.applyImpulse a b) s.arbs s.bodies).2).map Touch.load = (allTouches .corrections s.arbs).map Touch.load) ↔
    Solves .corrections s (own .corrections s) fun k => Channel.corrections.flow (s.bodies k) :=
  still_at corrections_act fun l h => ⟨ha l h, fun _ _ => trivial⟩

/-- The same for the velocities proper. -/
theorem C128_still_impacts (s : SolverState K) (ha : ∀ l ∈ s.arbs, Primed .impacts (fun k => (s.bodies k).mInv) (fun k => (s.bodies k).iInv) l ∧ Smooth l) :
    ((∀ k, Channel.impacts.flow ((linkLoop (fun arb a b => arb.applyImpulse a b) s.arbs s.bodies).1 k) = Channel.impacts.flow (s.bodies k)) ∧
      (allTouches .impacts (linkLoop (fun arb a b => arb.applyImpulse a b) s.arbs s.bodies).2).map Touch.load = (allTouches .impacts s.arbs).map Touch.load) ↔
    Solves .impacts s (own .impacts s) fun k => Channel.impacts.flow (s.bodies k) :=
  still_at impacts_act fun l h => ⟨(ha l h).1, fun c hc => ⟨(ha l h).2.2.1, (ha l h).2.1, (ha l h).2.2.2 c hc⟩⟩

/-! ## The whole solver -/

/-- Two different bodies, a normal of length one, and not both immovable. -/
structure Spec.Pushable (bs : Nat → Body K) (l : Link (Arbiter K)) : Prop where
  ne : l.ia ≠ l.ib
  unit : l.it.normal.x ^ 2 + l.it.normal.y ^ 2 = 1
  movable : 0 < (bs l.ia).mInv + (bs l.ib).mInv

/-- What the solver starts its iterations from. -/
def Spec.prepared (M : Mth K) (inf slop cbias damping : K) (g : V2 K) (dyn : List Nat) (prevDT dt : K) (s : SolverState K) : SolverState K :=
  ((s.preStep M inf slop cbias dt).velocities M inf damping g dyn dt).cached prevDT dt

theorem prepared_arbs (M : Mth K) (inf slop cbias damping : K) (g : V2 K) (dyn : List Nat) (prevDT dt : K) (s : SolverState K) :
    (prepared M inf slop cbias damping g dyn prevDT dt s).arbs =
      s.arbs.map fun l => { l with it := l.it.preStep (s.bodies l.ia) (s.bodies l.ib) dt slop (1 - M.pow cbias dt) } := by
  have keep : ∀ (f : Arbiter K → Body K → Body K → Body K × Body K) (ls : List (Link (Arbiter K))) (bs : Nat → Body K),
      (linkLoop (fun arb a b => ((f arb a b).1, (f arb a b).2, arb)) ls bs).2 = ls := by
    intro f ls
    induction ls with
    | nil => intro bs; rfl
    | cons l ls ih => intro bs; simp only [linkLoop]; rw [ih]
  have e : (s.preStep M inf slop cbias dt).arbs = s.arbs.map fun l => { l with it := l.it.preStep (s.bodies l.ia) (s.bodies l.ib) dt slop (1 - M.pow cbias dt) } := by
    simp only [SolverState.preStep]
    rw [linkLoop_fixed (fun (arb : Arbiter K) (a b : Body K) => (a, b, arb.preStep a b dt slop (1 - M.pow cbias dt)))
      (fun arb a b => arb.preStep a b dt slop (1 - M.pow cbias dt)) s.arbs s.bodies (fun l m => rfl)]
  rw [← e]
  simp only [prepared, SolverState.cached, SolverState.velocities]
  exact keep _ _ _

theorem prepared_masses (M : Mth K) (inf slop cbias damping : K) (g : V2 K) (dyn : List Nat) (prevDT dt : K) (s : SolverState K) (k : Nat) :
    ((prepared M inf slop cbias damping g dyn prevDT dt s).bodies k).mInv = (s.bodies k).mInv ∧ ((prepared M inf slop cbias damping g dyn prevDT dt s).bodies k).iInv = (s.bodies k).iInv := by
  have h : SameBut _ ((prepared M inf slop cbias damping g dyn prevDT dt s).bodies k) := solve_same M inf slop cbias damping g dyn prevDT dt 0 s k
  have v : ∀ b : Body K, (b.updateVelocity inf g (M.pow damping dt) dt).mInv = b.mInv ∧ (b.updateVelocity inf g (M.pow damping dt) dt).iInv = b.iInv := by
    intro b
    unfold Body.updateVelocity
    split <;> exact ⟨rfl, rfl⟩
  obtain ⟨h1, h2⟩ := And.intro h.masses.2.1 h.masses.2.2.2.1
  rw [h1, h2]
  split
  · exact v _
  · exact ⟨rfl, rfl⟩

theorem prepared_primed {κ : Channel K} {M : Mth K} {inf slop cbias damping : K} {g : V2 K} {dyn : List Nat} {prevDT dt : K} {s : SolverState K}
    (hm : ∀ k, 0 ≤ (s.bodies k).mInv ∧ 0 ≤ (s.bodies k).iInv) {l : Link (Arbiter K)} (h : Pushable s.bodies l)
    (h0 : ∀ c ∈ l.it.contacts, 0 ≤ κ.load (l.it.preStepContact (s.bodies l.ia) (s.bodies l.ib) dt slop (1 - M.pow cbias dt) c)) :
    Primed κ (fun k => ((prepared M inf slop cbias damping g dyn prevDT dt s).bodies k).mInv) (fun k => ((prepared M inf slop cbias damping g dyn prevDT dt s).bodies k).iInv)
      { l with it := l.it.preStep (s.bodies l.ia) (s.bodies l.ib) dt slop (1 - M.pow cbias dt) } := by
  refine ⟨h.ne, h.unit, fun c hc => ?_⟩
  obtain ⟨c0, m, rfl⟩ := List.mem_map.1 hc
  refine ⟨h0 c0 m, kScalar (s.bodies l.ia) (s.bodies l.ib) c0.r1 c0.r2 l.it.normal, ?_, rfl, ?_⟩
  · have a1 := mul_nonneg (hm l.ia).2 (mul_self_nonneg (c0.r1.cross l.it.normal))
    have a2 := mul_nonneg (hm l.ib).2 (mul_self_nonneg (c0.r2.cross l.it.normal))
    have := h.movable
    simp only [kScalar, kScalarBody]
    linarith
  · simp only [prepared_masses, kScalar, kScalarBody]
    simp only [Arbiter.preStepContact, Arbiter.preStep]
    ring

/-- The solver, with enough iterations, corrects overlaps as the solution says, up to any error. -/
theorem C128_solver [Archimedean K] (M : Mth K) (inf slop cbias damping : K) (g : V2 K) (dyn : List Nat) (prevDT dt : K) (s : SolverState K)
    (hm : ∀ k, 0 ≤ (s.bodies k).mInv ∧ 0 ≤ (s.bodies k).iInv) (hf : ∀ l ∈ s.arbs, Pushable s.bodies l) (P : List (Touch K × K)) (u : Flow K)
    (hs : Solves .corrections (prepared M inf slop cbias damping g dyn prevDT dt s) P u) :
    ∀ ε > 0, ∃ n0, ∀ n ≥ n0, ∀ k, FlowNear ε (Channel.corrections.flow ((s.solve M inf slop cbias damping g dyn prevDT dt n).bodies k)) (u k) := by
  refine C128_corrections M dt (prepared M inf slop cbias damping g dyn prevDT dt s) (fun k => ?_) ?_ P u hs
  · rw [(prepared_masses M inf slop cbias damping g dyn prevDT dt s k).1, (prepared_masses M inf slop cbias damping g dyn prevDT dt s k).2]
    exact hm k
  · intro l hl
    rw [prepared_arbs] at hl
    obtain ⟨l0, m, rfl⟩ := List.mem_map.1 hl
    exact prepared_primed hm (hf l0 m) fun c _ => le_refl _

/-- The solver, with enough iterations, makes bodies part as the solution says, up to any error, without friction and joints. -/
theorem C128_solver_impacts [Archimedean K] (M : Mth K) (inf slop cbias damping : K) (g : V2 K) (dyn : List Nat) (prevDT dt : K) (s : SolverState K)
    (hm : ∀ k, 0 ≤ (s.bodies k).mInv ∧ 0 ≤ (s.bodies k).iInv) (hf : ∀ l ∈ s.arbs, Pushable s.bodies l ∧ Smooth l ∧ ∀ c ∈ l.it.contacts, 0 ≤ c.jnAcc) (hj : s.joints = [])
    (P : List (Touch K × K)) (u : Flow K) (hs : Solves .impacts (prepared M inf slop cbias damping g dyn prevDT dt s) P u) :
    ∀ ε > 0, ∃ n0, ∀ n ≥ n0, ∀ k, FlowNear ε (Channel.impacts.flow ((s.solve M inf slop cbias damping g dyn prevDT dt n).bodies k)) (u k) := by
  refine C128_impacts M dt (prepared M inf slop cbias damping g dyn prevDT dt s) (fun k => ?_) ?_ ?_ P u hs
  · rw [(prepared_masses M inf slop cbias damping g dyn prevDT dt s k).1, (prepared_masses M inf slop cbias damping g dyn prevDT dt s k).2]
    exact hm k
  · intro l hl
    rw [prepared_arbs] at hl
    obtain ⟨l0, m, rfl⟩ := List.mem_map.1 hl
    obtain ⟨f1, f2, f3⟩ := hf l0 m
    refine ⟨prepared_primed hm f1 fun c hc => f3 c hc, f2.1, f2.2.1, fun c hc => ?_⟩
    obtain ⟨c0, m0, rfl⟩ := List.mem_map.1 hc
    exact f2.2.2 c0 m0
  · simp [prepared, SolverState.cached, SolverState.velocities, SolverState.preStep, hj, linkLoop]

/-! ## An example: two balls on a floor, the upper one pressed into the lower, the lower one into the floor -/

def exPile (fr : ℚ) : SolverState ℚ :=
  ⟨fun k => if k = 0 then { Body.blank with m := 1000, mInv := 0, i := 1000, iInv := 0 }
      else if k = 1 then { Body.blank with m := 1, mInv := 1, i := 1, iInv := 1, p := ⟨0, 1⟩, v := ⟨0, -1⟩ }
      else if k = 2 then { Body.blank with m := 1, mInv := 1, i := 1, iInv := 1, p := ⟨0, 2⟩, v := ⟨0, -1⟩ } else Body.blank,
    [⟨0, 1, ⟨0, fr, ⟨0, 0⟩, ⟨0, 1⟩, [⟨⟨0, 0⟩, ⟨0, -2⟩, 0, 0, 0, 0, 0, 0, 0, 0⟩], .first, false⟩⟩,
     ⟨1, 2, ⟨0, fr, ⟨0, 0⟩, ⟨0, 1⟩, [⟨⟨0, 1⟩, ⟨0, -1⟩, 0, 0, 0, 0, 0, 0, 0, 0⟩], .first, false⟩⟩], []⟩

def exReady (fr : ℚ) : SolverState ℚ := prepared toyMth 1000 (1/10) (1/2) 1 ⟨0, 0⟩ [] 1 1 (exPile fr)

theorem exReady_eq (fr : ℚ) : exReady fr = ⟨(exPile fr).bodies,
    [⟨0, 1, ⟨0, fr, ⟨0, 0⟩, ⟨0, 1⟩, [⟨⟨0, 0⟩, ⟨0, -2⟩, 1, 1/5, 0, 0, 0, 0, 9/20, 0⟩], .first, false⟩⟩,
     ⟨1, 2, ⟨0, fr, ⟨0, 0⟩, ⟨0, 1⟩, [⟨⟨0, 1⟩, ⟨0, -1⟩, 1/2, 1/4, 0, 0, 0, 0, 9/20, 0⟩], .first, false⟩⟩], []⟩ := by
  have e1 : (exReady fr).bodies = (exPile fr).bodies := by
    funext k
    simp only [exReady, prepared, SolverState.cached, SolverState.velocities, SolverState.preStep, exPile, linkLoop, Arbiter.preStep, Arbiter.applyCachedImpulse, putPair, if_true]
    split_ifs <;> simp_all
  have e2 := prepared_arbs toyMth 1000 (1/10) (1/2) 1 ⟨0, 0⟩ [] 1 1 (exPile fr)
  have e3 : (exReady fr).joints = [] := rfl
  have e4 : exReady fr = ⟨(exReady fr).bodies, (exReady fr).arbs, (exReady fr).joints⟩ := rfl
  rw [e4, e1, e3]
  congr 1
  refine e2.trans ?_
  simp [exPile, Arbiter.preStep, Arbiter.preStepContact, kScalar, kScalarBody, normalRelativeVelocity, relativeVelocity, V2.dot, V2.sub, V2.add, V2.cross, V2.perp, V2.scale, toyMth, Body.blank, V2.zero]
  norm_num

example : (∀ k, 0 ≤ ((exPile (1/2)).bodies k).mInv ∧ 0 ≤ ((exPile (1/2)).bodies k).iInv) ∧ (∀ l ∈ (exPile (1/2)).arbs, Pushable (exPile (1/2)).bodies l) := by
  refine ⟨fun k => ?_, fun l hl => ?_⟩
  · simp only [exPile]
    split_ifs <;> decide +kernel
  · simp only [exPile, List.mem_cons, List.not_mem_nil, or_false] at hl
    rcases hl with rfl | rfl <;> exact ⟨by decide, by norm_num, by decide +kernel⟩

/-- The lower ball is to move up by 9/20, the upper one by twice that. -/
example : Solves .corrections (exReady (1/2)) [(⟨0, 1, ⟨0, 1⟩, ⟨0, 0⟩, ⟨0, -2⟩, 9/20, 0⟩, 27/20), (⟨1, 2, ⟨0, 1⟩, ⟨0, 1⟩, ⟨0, -1⟩, 9/20, 0⟩, 9/10)]
    (fun k => if k = 1 then (0, 9/20, 0) else if k = 2 then (0, 9/10, 0) else 0) := by
  rw [exReady_eq]
  refine ⟨rfl, fun k => ?_, ?_, ?_, ?_⟩
  · rcases k with _ | _ | _ | k <;> simp [exPile, Channel.corrections, Touch.push, pushed, Body.blank, V2.zero] <;> norm_num [Prod.ext_iff]
  · simp; norm_num
  · simp [Touch.speed, partSpeed]; norm_num
  · simp [Touch.speed, partSpeed]; norm_num

/-- Without friction: the balls stop. -/
example : Solves .impacts (exReady 0) [(⟨0, 1, ⟨0, 1⟩, ⟨0, 0⟩, ⟨0, -2⟩, 0, 0⟩, 2), (⟨1, 2, ⟨0, 1⟩, ⟨0, 1⟩, ⟨0, -1⟩, 0, 0⟩, 1)] (fun _ => 0) ∧
    ∀ l ∈ (exPile 0).arbs, Smooth l := by
  rw [exReady_eq]
  refine ⟨⟨by simp [allTouches, touchOf, Channel.impacts], fun k => ?_, ?_, ?_, ?_⟩, ?_⟩
  · rcases k with _ | _ | _ | k <;> simp [exPile, Channel.impacts, Touch.push, pushed, Body.blank, V2.zero] <;> norm_num [Prod.ext_iff]
  · simp
  · simp [Touch.speed, partSpeed]
  · simp [Touch.speed, partSpeed]
  · simp [exPile, Smooth, V2.dot]

/-- One iteration, and ten of them, which halve the error each. -/
example : (((exPile (1/2)).solve toyMth 1000 (1/10) (1/2) 1 ⟨0, 0⟩ [] 1 1 1).bodies 1).vBias = ⟨0, 0⟩ ∧
    (((exPile (1/2)).solve toyMth 1000 (1/10) (1/2) 1 ⟨0, 0⟩ [] 1 1 10).bodies 2).vBias = ⟨0, 9/10 - 9/10240⟩ := by decide +kernel

end Cm
