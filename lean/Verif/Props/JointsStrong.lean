import Verif.Props.JointsMeet
/-! # C145: joints that are strong enough always hold together -/
set_option linter.unusedSectionVars false
set_option linter.unusedSimpArgs false
set_option linter.unusedVariables false
set_option linter.unnecessarySeqFocus false

namespace Cm
open Spec
variable {K : Type} [Field K] [LinearOrder K] [IsStrictOrderedRing K]

namespace Spec
/-- The joint with the greatest force `f`, as after `SetMaxForce`. -/
def strong (f : K) (jt : Joint K) : Joint K :=
  match jt with
  | .pin j => .pin { j with maxForce := f }
  | .pivot j => .pivot { j with maxForce := f }
  | .gear j => .gear { j with maxForce := f }
  | .motor j => .motor { j with maxForce := f }
  | jt => jt

/-- All joints have the greatest force `f`. -/
def allStrong (f : K) (s : SolverState K) : SolverState K := { s with joints := s.joints.map fun l => { l with it := strong f l.it } }
end Spec

/-! ## Loads -/

/-- No impulse of the joint so far exceeds `A`. -/
def BearsUpTo (A : K) (jt : Joint K) : Prop :=
  match jt with
  | .pin j => |j.jnAcc| ≤ A
  | .pivot j => |j.jAcc.x| ≤ A ∧ |j.jAcc.y| ≤ A
  | .gear j => |j.jAcc| ≤ A
  | .motor j => |j.jAcc| ≤ A
  | _ => True

/-- The joint has the greatest force `f`. -/
def LimitIs (f : K) (jt : Joint K) : Prop :=
  match jt with
  | .pin j => j.maxForce = f
  | .pivot j => j.maxForce = f
  | .gear j => j.maxForce = f
  | .motor j => j.maxForce = f
  | _ => True

/-- How much impulse a miss calls for, squared. -/
def gain (jt : Joint K) : K :=
  match jt with
  | .pin j => j.nMass ^ 2
  | .pivot j => 2 * (j.k.a ^ 2 + j.k.b ^ 2 + j.k.c ^ 2 + j.k.d ^ 2)
  | .gear j => j.iSum ^ 2
  | .motor j => j.iSum ^ 2
  | _ => 0

theorem gain_nonneg (jt : Joint K) : 0 ≤ gain jt := by
  cases jt <;> simp only [gain] <;> positivity

/-- The misses of a joint, squared. -/
def missed (jt : Joint K) (x y : K × K × K) : K := ((asked jt).map fun r => (r.1.reads x y - r.2) ^ 2).sum

theorem clamp_free {f m : K} (h : |f| < m) : clamp f (-m) m = f := by
  obtain ⟨h1, h2⟩ := abs_lt.1 h
  rw [clamp_eq _ _ _ (by linarith), min_eq_left h2.le, max_eq_right h1.le]

theorem bear_add {acc d A δ L : K} (ha : |acc| ≤ A) (hd : d ^ 2 ≤ δ ^ 2) (h0 : 0 ≤ δ) (hL : 2 * (A + δ) < L) : |acc + d| ≤ A + δ ∧ |acc + d| < L := by
  have h1 : |d| ≤ δ := abs_le_of_sq_le_sq hd h0
  have h2 := (abs_add_le acc d).trans (add_le_add ha h1)
  have := abs_nonneg (acc + d)
  exact ⟨h2, by linarith⟩

theorem row_le (x y a b e : K) (he : 0 ≤ e) : (x * a + y * b) ^ 2 ≤ 2 * (a ^ 2 + b ^ 2 + e) * (x ^ 2 + y ^ 2) := by
  have h1 : 0 ≤ e * (x ^ 2 + y ^ 2) := by positivity
  have h2 : 0 ≤ (a ^ 2 + b ^ 2) * (x ^ 2 + y ^ 2) := by positivity
  have h3 : (x * a + y * b) ^ 2 + (x * b - y * a) ^ 2 = (a ^ 2 + b ^ 2) * (x ^ 2 + y ^ 2) := by ring
  have h4 := sq_nonneg (x * b - y * a)
  linarith

theorem length_lt {x y A L : K} (h0 : 0 ≤ A) (hx : |x| ≤ A) (hy : |y| ≤ A) (hL : 2 * A < L) : x * x + y * y < L * L := by
  have h1 : x * x ≤ A * A := by rw [← abs_mul_abs_self x]; exact mul_self_le_mul_self (abs_nonneg _) hx
  have h2 : y * y ≤ A * A := by rw [← abs_mul_abs_self y]; exact mul_self_le_mul_self (abs_nonneg _) hy
  have h3 : (2 * A) * (2 * A) < L * L := mul_self_lt_mul_self (by linarith) hL
  have := mul_self_nonneg A
  linarith

/-- What a joint has to bear more after an iteration. -/
theorem bear_step (M : Mth K) (dt f : K) (jt : Joint K) (a b : Body K) {A δ : K} (ht : Tied jt a b) (hA : BearsUpTo A jt) (h0 : 0 ≤ δ) (hf : LimitIs f jt) (hL : 2 * (A + δ) < f * dt)
    (hd : gain jt * missed jt (Channel.impacts.flow a) (Channel.impacts.flow b) ≤ δ ^ 2) :
    Unstrained dt (jt.applyImpulse M a b dt).2.2 ∧ BearsUpTo (A + δ) (jt.applyImpulse M a b dt).2.2 ∧ LimitIs f (jt.applyImpulse M a b dt).2.2 ∧
      gain (jt.applyImpulse M a b dt).2.2 = gain jt := by
  cases jt with
  | pin j =>
    subst hf
    have e : normalRelativeVelocity a b j.r1 j.r2 j.n - j.bias = (gradAt j.n j.r1 j.r2).reads (Channel.impacts.flow a) (Channel.impacts.flow b) - j.bias := by
      rw [normalRelativeVelocity_eq]; simp only [approach, pointVel, Grad.reads, gradAt, Channel.impacts]; ring
    have hd' : ((j.bias - normalRelativeVelocity a b j.r1 j.r2 j.n) * j.nMass) ^ 2 ≤ δ ^ 2 := by
      simp only [gain, missed, asked, List.map_cons, List.map_nil, List.sum_cons, List.sum_nil, ← e] at hd
      linarith
    obtain ⟨b1, b2⟩ := bear_add hA hd' h0 hL
    have : (j.applyImpulse a b dt).2.2.jnAcc = j.jnAcc + (j.bias - normalRelativeVelocity a b j.r1 j.r2 j.n) * j.nMass := clamp_free b2
    refine ⟨?_, ?_, rfl, rfl⟩
    · show |(j.applyImpulse a b dt).2.2.jnAcc| < _
      rw [this]; exact b2
    · show |(j.applyImpulse a b dt).2.2.jnAcc| ≤ _
      rw [this]; exact b1
  | pivot j =>
    subst hf
    set v := j.bias.sub (relativeVelocity a b j.r1 j.r2) with hv
    have ex : v.x = -((gradAt ⟨1, 0⟩ j.r1 j.r2).reads (Channel.impacts.flow a) (Channel.impacts.flow b) - j.bias.x) := by
      rw [hv]; simp only [relativeVelocity, V2.sub, V2.add, V2.scale, V2.perp, Grad.reads, gradAt, Channel.impacts]; ring
    have ey : v.y = -((gradAt ⟨0, 1⟩ j.r1 j.r2).reads (Channel.impacts.flow a) (Channel.impacts.flow b) - j.bias.y) := by
      rw [hv]; simp only [relativeVelocity, V2.sub, V2.add, V2.scale, V2.perp, Grad.reads, gradAt, Channel.impacts]; ring
    have hd2 : 2 * (j.k.a ^ 2 + j.k.b ^ 2 + j.k.c ^ 2 + j.k.d ^ 2) * (v.x ^ 2 + v.y ^ 2) ≤ δ ^ 2 := by
      simp only [gain, missed, asked, List.map_cons, List.map_nil, List.sum_cons, List.sum_nil] at hd
      rw [ex, ey, neg_sq, neg_sq]
      linarith
    have hx : (v.x * j.k.a + v.y * j.k.b) ^ 2 ≤ δ ^ 2 := (row_le v.x v.y j.k.a j.k.b (j.k.c ^ 2 + j.k.d ^ 2) (by positivity)).trans (by linarith)
    have hy : (v.x * j.k.c + v.y * j.k.d) ^ 2 ≤ δ ^ 2 := (row_le v.x v.y j.k.c j.k.d (j.k.a ^ 2 + j.k.b ^ 2) (by positivity)).trans (by linarith)
    obtain ⟨x1, -⟩ := bear_add hA.1 hx h0 hL
    obtain ⟨y1, -⟩ := bear_add hA.2 hy h0 hL
    set q := j.jAcc.add (j.k.transform v) with hq
    have qx : q.x = j.jAcc.x + (v.x * j.k.a + v.y * j.k.b) := rfl
    have qy : q.y = j.jAcc.y + (v.x * j.k.c + v.y * j.k.d) := rfl
    rw [← qx] at x1
    rw [← qy] at y1
    have A0 : 0 ≤ A + δ := (abs_nonneg _).trans x1
    have lt : q.x * q.x + q.y * q.y < (j.maxForce * dt) * (j.maxForce * dt) := length_lt A0 x1 y1 hL
    have : (j.applyImpulse M a b dt).2.2.jAcc = q := by
      show q.clampMag M (j.maxForce * dt) = q
      unfold V2.clampMag
      rw [if_neg]
      simp only [V2.dot]
      exact not_lt.2 lt.le
    refine ⟨?_, ?_, rfl, rfl⟩
    · show (j.applyImpulse M a b dt).2.2.jAcc.lengthSq < _
      rw [this]; exact lt
    · show |(j.applyImpulse M a b dt).2.2.jAcc.x| ≤ _ ∧ |(j.applyImpulse M a b dt).2.2.jAcc.y| ≤ _
      rw [this]; exact ⟨x1, y1⟩
  | gear j =>
    subst hf
    have hd' : ((j.bias - (b.w * j.ratio - a.w)) * j.iSum) ^ 2 ≤ δ ^ 2 := by
      simp only [gain, missed, asked, List.map_cons, List.map_nil, List.sum_cons, List.sum_nil, Grad.reads, Channel.impacts] at hd
      refine le_trans (le_of_eq ?_) hd
      ring
    obtain ⟨b1, b2⟩ := bear_add hA hd' h0 hL
    have : (j.applyImpulse a b dt).2.2.jAcc = j.jAcc + (j.bias - (b.w * j.ratio - a.w)) * j.iSum := clamp_free b2
    refine ⟨?_, ?_, rfl, rfl⟩
    · show |(j.applyImpulse a b dt).2.2.jAcc| < _
      rw [this]; exact b2
    · show |(j.applyImpulse a b dt).2.2.jAcc| ≤ _
      rw [this]; exact b1
  | motor j =>
    subst hf
    have hd' : (-(b.w - a.w + j.rate) * j.iSum) ^ 2 ≤ δ ^ 2 := by
      simp only [gain, missed, asked, List.map_cons, List.map_nil, List.sum_cons, List.sum_nil, Grad.reads, Channel.impacts] at hd
      refine le_trans (le_of_eq ?_) hd
      ring
    obtain ⟨b1, b2⟩ := bear_add hA hd' h0 hL
    have : (j.applyImpulse a b dt).2.2.jAcc = j.jAcc + -(b.w - a.w + j.rate) * j.iSum := clamp_free b2
    refine ⟨?_, ?_, rfl, rfl⟩
    · show |(j.applyImpulse a b dt).2.2.jAcc| < _
      rw [this]; exact b2
    · show |(j.applyImpulse a b dt).2.2.jAcc| ≤ _
      rw [this]; exact b1
  | slide j => exact ht.elim
  | groove j => exact ht.elim
  | ratchet j => exact ht.elim
  | rotaryLimit j => exact ht.elim
  | spring j => exact ht.elim
  | rotarySpring j => exact ht.elim

/-- How strongly a joint answers to the energy of what is missing. -/
def answer (N : Nat) (μ ι : Nat → K) (l : Link (Joint K)) : K := gain l.it * ((asked l.it).map fun r => form N μ ι (pulls μ ι l.ia l.ib r.1) (pulls μ ι l.ia l.ib r.1)).sum

theorem missed_le {N : Nat} {μ ι : Nat → K} (hμ : ∀ k, 0 ≤ μ k ∧ 0 ≤ ι k) {l : Link (Joint K)} (ha : l.ia < N) (hb : l.ib < N) (hne : l.ia ≠ l.ib) {bs : Nat → Body K} {w : Flow K}
    (hw : MeetsAll w (tie l)) (hr : Reach μ ι (away .impacts bs w)) :
    gain l.it * missed l.it (Channel.impacts.flow (bs l.ia)) (Channel.impacts.flow (bs l.ib)) ≤ answer N μ ι l * form N μ ι (away .impacts bs w) (away .impacts bs w) := by
  rw [answer, mul_assoc]
  refine mul_le_mul_of_nonneg_left ?_ (gain_nonneg _)
  rw [missed, ← List.sum_map_mul_right]
  refine List.sum_le_sum fun r hr1 => ?_
  have c := Tie.cauchy (form_sym N μ ι) (form_nonneg (N := N) (fun k => (hμ k).1) (fun k => (hμ k).2)) (pulls μ ι l.ia l.ib r.1) (away .impacts bs w)
  rw [form_pulls r.1 ha hb hne hr] at c
  refine le_trans (le_of_eq ?_) c
  have e : r.1.reads (w l.ia) (w l.ib) = r.2 := hw r hr1
  have : (away .impacts bs w) l.ia = Channel.impacts.flow (bs l.ia) - w l.ia ∧ (away .impacts bs w) l.ib = Channel.impacts.flow (bs l.ib) - w l.ib := ⟨rfl, rfl⟩
  rw [this.1, this.2, reads_sub, e]

/-- What the joints bear during an iteration. -/
theorem joints_bear {M : Mth K} (hM : M.Lawful) (dt f : K) {N : Nat} {μ ι : Nat → K} (hμ : ∀ k, 0 ≤ μ k ∧ 0 ≤ ι k) {w : Flow K} (B0 : Nat → Body K)
    (hm : ∀ k, (B0 k).mInv = μ k ∧ (B0 k).iInv = ι k) {A δ C E : K} (h0 : 0 ≤ δ) (hC : 0 ≤ C) (hL : 2 * (A + δ) < f * dt) (hE : C * E ≤ δ ^ 2) (js : List (Link (Joint K))) :
    ∀ bs : Nat → Body K, (∀ k, SameBut (B0 k) (bs k)) →
    (∀ l ∈ js, (l.ia < N ∧ l.ib < N ∧ l.ia ≠ l.ib ∧ Tied l.it (B0 l.ia) (B0 l.ib) ∧ MeetsAll w (tie l)) ∧ BearsUpTo A l.it ∧ LimitIs f l.it ∧ answer N μ ι l ≤ C) →
    Reach μ ι (away .impacts bs w) → form N μ ι (away .impacts bs w) (away .impacts bs w) ≤ E →
    ∀ l ∈ (linkLoop (fun jt a b => jt.applyImpulse M a b dt) js bs).2, Unstrained dt l.it ∧ BearsUpTo (A + δ) l.it ∧ LimitIs f l.it ∧ answer N μ ι l ≤ C := by
  induction js with
  | nil => intro bs _ _ _ _; simp [linkLoop]
  | cons l ls ih =>
    intro bs hb hl hr he
    obtain ⟨⟨g1, g2, g3, g4, g5⟩, g6, g7, g8⟩ := hl l (by simp)
    have gt := tied_same (hb l.ia) (hb l.ib) g4
    have e0 := form_nonneg (N := N) (fun k => (hμ k).1) (fun k => (hμ k).2) (away .impacts bs w)
    have hd := (missed_le hμ g1 g2 g3 g5 hr).trans ((mul_le_mul g8 he e0 hC).trans hE)
    obtain ⟨b1, b2, b3, b4⟩ := bear_step M dt f l.it (bs l.ia) (bs l.ib) gt g6 h0 g7 hL hd
    have hm' : ∀ k, (bs k).mInv = μ k ∧ (bs k).iInv = ι k := fun k => ⟨(hb k).masses.2.1.trans (hm k).1, (hb k).masses.2.2.2.1.trans (hm k).2⟩
    obtain ⟨st, rr⟩ := joint_step hM dt g1 g2 g3 hm' gt b1 g5 hr
    obtain ⟨-, -, h3, -⟩ := joint_hits hM dt l.it (bs l.ia) (bs l.ib) gt b1
    have hb1 : ∀ k, SameBut (B0 k) (putPair bs l.ia l.ib (l.it.applyImpulse M (bs l.ia) (bs l.ib) dt).1 (l.it.applyImpulse M (bs l.ia) (bs l.ib) dt).2.1 k) := by
      intro k
      have := linkLoop_place (fun jt a b => jt.applyImpulse M a b dt) (fun x a b => jointNudge M dt x a b) [l] bs k
      simp only [linkLoop] at this
      exact (hb k).trans this
    have en := Tie.step_energy (form_sym N μ ι) (form_nonneg (N := N) (fun k => (hμ k).1) (fun k => (hμ k).2)) st
    have i := ih _ hb1 (fun m hm => hl m (by simp [hm])) rr (by
      have := form_nonneg (N := N) (fun k => (hμ k).1) (fun k => (hμ k).2)
        (away .impacts (putPair bs l.ia l.ib (l.it.applyImpulse M (bs l.ia) (bs l.ib) dt).1 (l.it.applyImpulse M (bs l.ia) (bs l.ib) dt).2.1) w - away .impacts bs w)
      linarith)
    intro m hm2
    simp only [linkLoop, List.mem_cons] at hm2
    rcases hm2 with rfl | hm2
    · exact ⟨b1, b2, b3, by simp only [answer, b4, h3]; exact g8⟩
    · exact i m hm2

theorem BearsUpTo.mono {A A' : K} {jt : Joint K} (h : BearsUpTo A jt) (hA : A ≤ A') : BearsUpTo A' jt := by
  cases jt <;> simp only [BearsUpTo] at h ⊢ <;> first | exact h.trans hA | exact ⟨h.1.trans hA, h.2.trans hA⟩

theorem bears_some (jt : Joint K) : ∃ A : K, BearsUpTo A jt := by
  cases jt with
  | pin j => exact ⟨_, le_refl _⟩
  | pivot j => exact ⟨_, le_max_left _ _, le_max_right _ _⟩
  | gear j => exact ⟨_, le_refl _⟩
  | motor j => exact ⟨_, le_refl _⟩
  | _ => exact ⟨0, trivial⟩

theorem bears_all (js : List (Link (Joint K))) (g : Link (Joint K) → K) : ∃ A C : K, 0 ≤ A ∧ 0 ≤ C ∧ ∀ l ∈ js, BearsUpTo A l.it ∧ g l ≤ C := by
  induction js with
  | nil => exact ⟨0, 0, le_rfl, le_rfl, by simp⟩
  | cons l ls ih =>
    obtain ⟨A, C, a0, c0, h⟩ := ih
    obtain ⟨A', h'⟩ := bears_some l.it
    refine ⟨max A A', max C (g l), le_max_of_le_left a0, le_max_of_le_left c0, fun m hm => ?_⟩
    rcases List.mem_cons.1 hm with rfl | hm
    · exact ⟨h'.mono (le_max_right _ _), le_max_right _ _⟩
    · exact ⟨(h m hm).1.mono (le_max_left _ _), (h m hm).2.trans (le_max_left _ _)⟩

/-! ## Greatest forces do not matter for what a joint asks for -/

theorem strong_asked (f : K) (jt : Joint K) : asked (strong f jt) = asked jt := by cases jt <;> rfl
theorem strong_gain (f : K) (jt : Joint K) : gain (strong f jt) = gain jt := by cases jt <;> rfl
theorem strong_tied (f : K) (jt : Joint K) (a b : Body K) : Tied (strong f jt) a b ↔ Tied jt a b := by cases jt <;> exact Iff.rfl
theorem strong_bears (f A : K) (jt : Joint K) : BearsUpTo A (strong f jt) ↔ BearsUpTo A jt := by cases jt <;> exact Iff.rfl
theorem strong_limit (f : K) (jt : Joint K) : LimitIs f (strong f jt) := by cases jt <;> first | rfl | trivial
theorem strong_misses (f : K) (jt : Joint K) (x y : K × K × K) : misses (strong f jt) x y = misses jt x y := by rw [misses_eq, misses_eq, strong_asked]

theorem strong_agrees (f : K) (s : SolverState K) (w : Flow K) : Agrees (allStrong f s) w ↔ Agrees s w := by
  constructor
  · rintro ⟨h1, h2⟩
    refine ⟨h1, fun l hl => ?_⟩
    have := h2 _ (List.mem_map.2 ⟨l, hl, rfl⟩)
    simpa only [strong_misses] using this
  · rintro ⟨h1, h2⟩
    refine ⟨h1, fun l hl => ?_⟩
    obtain ⟨l, h0, rfl⟩ := List.mem_map.1 hl
    simpa only [strong_misses] using h2 l h0

/-- **C145**. For every arrangement of pins, pivots, gears and motors whose wishes can be met there is a force such that joints that may use it never reach their greatest force, in any number of iterations. -/
theorem C145_strong_enough {M : Mth K} (hM : M.Lawful) (dt : K) (s : SolverState K) (hc : s.arbs = []) (hm : ∀ k, 0 ≤ (s.bodies k).mInv ∧ 0 ≤ (s.bodies k).iInv)
    (hj : ∀ l ∈ s.joints, l.ia ≠ l.ib ∧ Tied l.it (s.bodies l.ia) (s.bodies l.ib)) (hw : ∃ w, Agrees s w) :
    ∃ F, ∀ f, F < f * dt → ∀ n, ∀ l ∈ ((SolverState.iterate M dt)^[n + 1] (allStrong f s)).joints, Unstrained dt l.it := by
  obtain ⟨u, ua, p1⟩ := least_change s hm (fun l h => (hj l h).1) hw
  set μ := fun k => (s.bodies k).mInv with hμ
  set ι := fun k => (s.bodies k).iInv with hι
  set L := (s.joints.map tie).map (dirs μ ι) with hL
  obtain ⟨N, hN⟩ := bound_joints s.joints
  have sym := form_sym N μ ι
  have psd := form_nonneg (N := N) (μ := μ) (ι := ι) (fun k => (hm k).1) (fun k => (hm k).2)
  obtain ⟨ρ, r0, r1, hρ⟩ := Tie.shrinks (B := form N μ ι) sym psd L
  obtain ⟨A0, C, a0, c0, hAC⟩ := bears_all s.joints (answer N μ ι)
  set Q := form N μ ι (away .impacts s.bodies u) (away .impacts s.bodies u) with hQ
  have q0 : 0 ≤ Q := psd _
  set D := C * Q + 1 with hD
  have d0 : 0 ≤ D := by positivity
  have dd : C * Q ≤ D ^ 2 := by
    have := mul_nonneg c0 q0
    nlinarith
  set σ := (1 + ρ) / 2 with hσ
  have s0 : 0 ≤ σ := by positivity
  have s1 : σ < 1 := by rw [hσ]; linarith
  have sr : ρ ≤ σ ^ 2 := by rw [hσ]; nlinarith [sq_nonneg (1 - ρ)]
  set A : Nat → K := fun n => A0 + D * (1 - σ ^ n) / (1 - σ) with hA
  have A_succ : ∀ n, A n + D * σ ^ n = A (n + 1) := by
    intro n
    have : 1 - σ ≠ 0 := by linarith
    simp only [hA]
    rw [pow_succ]
    field_simp
    ring
  have A_le : ∀ n, A n ≤ A0 + D / (1 - σ) := by
    intro n
    simp only [hA]
    have : D * (1 - σ ^ n) / (1 - σ) ≤ D / (1 - σ) := by
      refine div_le_div_of_nonneg_right ?_ (by linarith)
      have := pow_nonneg s0 n
      nlinarith
    linarith
  refine ⟨2 * (A0 + D / (1 - σ)), fun f hf => ?_⟩
  set S := allStrong f s with hS
  have bS : S.bodies = s.bodies := rfl
  have tS : S.joints.map tie = s.joints.map tie := by
    simp only [hS, allStrong, List.map_map]
    refine List.map_congr_left fun l _ => ?_
    simp only [Function.comp, tie, strong_asked]
  have uS : Agrees S u := (strong_agrees f s u).2 ua
  have hl : ∀ l ∈ S.joints, l.ia < N ∧ l.ib < N ∧ l.ia ≠ l.ib ∧ Tied l.it (S.bodies l.ia) (S.bodies l.ib) ∧ MeetsAll u (tie l) := by
    intro l hl
    have met := (met_iff l u).1 (uS.met l hl)
    obtain ⟨l, h0, rfl⟩ := List.mem_map.1 hl
    exact ⟨(hN l h0).1, (hN l h0).2, (hj l h0).1, (strong_tied f _ _ _).2 (hj l h0).2, met⟩
  have ur : Reach μ ι (away .impacts S.bodies u) := agrees_reach (s := S) uS
  have start : ∀ l ∈ S.joints, BearsUpTo (A 0) l.it ∧ LimitIs f l.it ∧ answer N μ ι l ≤ C := by
    intro l hl
    obtain ⟨l, h0, rfl⟩ := List.mem_map.1 hl
    refine ⟨(strong_bears _ _ _).2 ((hAC l h0).1.mono ?_), strong_limit _ _, ?_⟩
    · simp [hA]
    · simp only [answer, strong_gain, strong_asked]; exact (hAC l h0).2
  -- everything up to an iteration
  have all : ∀ n, (∀ m ≤ n, ∀ l ∈ ((SolverState.iterate M dt)^[m + 1] S).joints, Unstrained dt l.it) ∧
      (∀ l ∈ ((SolverState.iterate M dt)^[n + 1] S).joints, BearsUpTo (A (n + 1)) l.it ∧ LimitIs f l.it ∧ answer N μ ι l ≤ C) ∧
      away .impacts ((SolverState.iterate M dt)^[n + 1] S).bodies u ∈ Tie.Made (K := K) L.flatten ∧
      form N μ ι (away .impacts ((SolverState.iterate M dt)^[n + 1] S).bodies u) (away .impacts ((SolverState.iterate M dt)^[n + 1] S).bodies u) ≤ ρ ^ (n + 1) * Q := by
    -- one iteration
    have one : ∀ (n : Nat) (t : SolverState K), t.arbs = [] → (∀ k, SameBut (s.bodies k) (t.bodies k)) →
        (∀ l ∈ t.joints, l.ia < N ∧ l.ib < N ∧ l.ia ≠ l.ib ∧ Tied l.it (s.bodies l.ia) (s.bodies l.ib) ∧ MeetsAll u (tie l)) →
        (∀ l ∈ t.joints, BearsUpTo (A n) l.it ∧ LimitIs f l.it ∧ answer N μ ι l ≤ C) → Reach μ ι (away .impacts t.bodies u) →
        form N μ ι (away .impacts t.bodies u) (away .impacts t.bodies u) ≤ ρ ^ n * Q →
        ∀ l ∈ (t.iterate M dt).joints, Unstrained dt l.it ∧ BearsUpTo (A (n + 1)) l.it ∧ LimitIs f l.it ∧ answer N μ ι l ≤ C := by
      intro n t t1 t2 t3 t4 t5 t6
      have lim : 2 * (A n + D * σ ^ n) < f * dt := by rw [A_succ]; linarith [A_le (n + 1)]
      have en : C * (ρ ^ n * Q) ≤ (D * σ ^ n) ^ 2 := by
        have e1 : ρ ^ n ≤ (σ ^ n) ^ 2 := by rw [← pow_mul, mul_comm, pow_mul]; exact pow_le_pow_left₀ r0 sr n
        have e2 := mul_le_mul dd e1 (pow_nonneg r0 n) (sq_nonneg D)
        calc C * (ρ ^ n * Q) = C * Q * ρ ^ n := by ring
          _ ≤ D ^ 2 * (σ ^ n) ^ 2 := e2
          _ = (D * σ ^ n) ^ 2 := by ring
      have := joints_bear hM dt f (N := N) (μ := μ) (ι := ι) hm (w := u) s.bodies (fun k => ⟨rfl, rfl⟩) (mul_nonneg d0 (pow_nonneg s0 n)) c0 lim en t.joints t.bodies t2
        (fun l h => ⟨t3 l h, t4 l h⟩) t5 t6
      rw [A_succ] at this
      have e : (t.iterate M dt).joints = (linkLoop (fun jt a b => jt.applyImpulse M a b dt) t.joints t.bodies).2 := by simp [SolverState.iterate, t1, linkLoop]
      rw [e]
      exact this
    intro n
    induction n with
    | zero =>
      have f0 := one 0 S hc (fun k => rfl) hl start ur (by simp [hQ, bS])
      have un : ∀ m ≤ 0, ∀ l ∈ ((SolverState.iterate M dt)^[m + 1] S).joints, Unstrained dt l.it := by
        intro m hm0 l hl0
        obtain rfl : m = 0 := by omega
        exact (f0 l hl0).1
      have pa := (iterate_pass (s := S) hM dt hc hl ur 0 un).2
      rw [tS] at pa
      have mem0 : away .impacts ((SolverState.iterate M dt)^[0] S).bodies u ∈ Tie.Made (K := K) L.flatten := p1
      refine ⟨un, fun l hl0 => (f0 l hl0).2, ?_, ?_⟩
      · have := Submodule.add_mem _ mem0 (Tie.pass_made _ _ _ pa)
        rwa [add_sub_cancel] at this
      · have := hρ _ _ mem0 pa
        rw [zero_add, pow_one]
        exact this
    | succ n ih =>
      obtain ⟨i1, i2, i3, i4⟩ := ih
      have st : (SolverState.iterate M dt)^[n + 1 + 1] S = ((SolverState.iterate M dt)^[n + 1] S).iterate M dt := Function.iterate_succ_apply' _ _ _
      have inv : (((SolverState.iterate M dt)^[n + 1] S).arbs = [] ∧ (∀ k, SameBut (s.bodies k) (((SolverState.iterate M dt)^[n + 1] S).bodies k)) ∧
          (∀ l ∈ ((SolverState.iterate M dt)^[n + 1] S).joints, l.ia < N ∧ l.ib < N ∧ l.ia ≠ l.ib ∧ Tied l.it (s.bodies l.ia) (s.bodies l.ib) ∧ MeetsAll u (tie l)) ∧
          Reach μ ι (away .impacts ((SolverState.iterate M dt)^[n + 1] S).bodies u)) := by
        obtain ⟨k1, k2, k3, k4, k5⟩ := iterate_keeps (s := S) hM dt hc hl ur (n + 1) fun m hm0 => i1 m (by omega)
        exact ⟨k1, k3, k4, k5⟩
      obtain ⟨v1, v2, v3, v4⟩ := inv
      have f0 := one (n + 1) _ v1 v2 v3 i2 v4 i4
      rw [← st] at f0
      have un : ∀ m ≤ n + 1, ∀ l ∈ ((SolverState.iterate M dt)^[m + 1] S).joints, Unstrained dt l.it := by
        intro m hm0 l hl0
        rcases Nat.lt_or_ge m (n + 1) with h | h
        · exact i1 m (by omega) l hl0
        · obtain rfl : m = n + 1 := by omega
          exact (f0 l hl0).1
      have pa := (iterate_pass (s := S) hM dt hc hl ur (n + 1) un).2
      rw [tS] at pa
      refine ⟨un, fun l hl0 => (f0 l hl0).2, ?_, ?_⟩
      · have := Submodule.add_mem _ i3 (Tie.pass_made _ _ _ pa)
        rwa [add_sub_cancel] at this
      · have := hρ _ _ i3 pa
        rw [pow_succ', mul_assoc]
        exact this.trans (mul_le_mul_of_nonneg_left i4 r0)
  exact fun n => (all n).1 n le_rfl

/-- Joints that are strong enough come to hold together: whatever the bodies, the joints and the velocities, there is a force with which the iterations come as near as one likes
to velocities with which all joints have what they ask for. -/
theorem C145_hold [Archimedean K] {M : Mth K} (hM : M.Lawful) (dt : K) (s : SolverState K) (hc : s.arbs = []) (hm : ∀ k, 0 ≤ (s.bodies k).mInv ∧ 0 ≤ (s.bodies k).iInv)
    (hj : ∀ l ∈ s.joints, l.ia ≠ l.ib ∧ Tied l.it (s.bodies l.ia) (s.bodies l.ib)) (hw : ∃ w, Agrees s w) :
    ∃ F, ∀ f, F < f * dt → ∃ u, Agrees s u ∧ ∀ ε > 0, ∃ n0, ∀ n ≥ n0, ∀ k,
      FlowNear ε (Channel.impacts.flow (((SolverState.iterate M dt)^[n] (allStrong f s)).bodies k)) (u k) := by
  obtain ⟨F, hF⟩ := C145_strong_enough hM dt s hc hm hj hw
  refine ⟨F, fun f hf => ?_⟩
  obtain ⟨u, h1, h2, -⟩ := C144_joints_meet hM dt (allStrong f s) hc hm (fun l hl => by
    obtain ⟨l, h0, rfl⟩ := List.mem_map.1 hl
    exact ⟨(hj l h0).1, (strong_tied f _ _ _).2 (hj l h0).2⟩) (hF f hf) (by
    obtain ⟨w, hw⟩ := hw
    exact ⟨w, (strong_agrees f s w).2 hw⟩)
  exact ⟨u, (strong_agrees f s u).1 h1, h2⟩

/-! ## An example: a pendulum that hangs from an immovable body, and a ball tied to it that flies away -/

noncomputable def exFlail : SolverState ℝ :=
  let o : Body ℝ := { Body.blank with m := 1, mInv := 0, i := 1, iInv := 0 }
  let a : Body ℝ := { Body.blank with m := 1, mInv := 1, i := 1, iInv := 1, p := ⟨1, 0⟩ }
  let b : Body ℝ := { Body.blank with m := 1, mInv := 1, i := 1, iInv := 1, p := ⟨2, 0⟩, v := ⟨3, 4⟩ }
  ⟨fun k => if k = 0 then o else if k = 1 then a else if k = 2 then b else Body.blank, [],
    [⟨0, 1, .pivot ⟨⟨0, 1, 1⟩, ⟨0, 0⟩, ⟨-1, 0⟩, ⟨0, 0⟩, ⟨-1, 0⟩, kTensor o a ⟨0, 0⟩ ⟨-1, 0⟩, ⟨0, 0⟩, ⟨0, 0⟩⟩⟩,
     ⟨1, 2, .pin ⟨⟨0, 1, 1⟩, ⟨0, 0⟩, ⟨0, 0⟩, 1, ⟨0, 0⟩, ⟨0, 0⟩, ⟨1, 0⟩, 1 / kScalar a b ⟨0, 0⟩ ⟨0, 0⟩ ⟨1, 0⟩, 0, 0⟩⟩]⟩

example : exFlail.arbs = [] ∧ (∀ k, 0 ≤ (exFlail.bodies k).mInv ∧ 0 ≤ (exFlail.bodies k).iInv) ∧
    (∀ l ∈ exFlail.joints, l.ia ≠ l.ib ∧ Tied l.it (exFlail.bodies l.ia) (exFlail.bodies l.ib)) ∧ (∃ w, Agrees exFlail w) ∧
    misses (exFlail.joints.getLast (by simp [exFlail])).it (Channel.impacts.flow (exFlail.bodies 1)) (Channel.impacts.flow (exFlail.bodies 2)) = [3] := by
  refine ⟨rfl, fun k => ?_, fun l hl => ?_, ⟨fun _ => 0, fun k => ?_, ?_⟩, ?_⟩
  · simp only [exFlail]; split_ifs <;> simp [Body.blank]
  · simp only [exFlail, List.mem_cons, List.not_mem_nil, or_false] at hl
    rcases hl with rfl | rfl
    · refine ⟨by decide, ?_, ?_⟩
      · simp [exFlail, Movable]
      · simp [exFlail]
    · refine ⟨by decide, ?_, ?_, ?_⟩
      · simp [exFlail, Movable]
      · simp
      · simp [exFlail]
  · simp only [exFlail]; split_ifs <;> simp [Body.blank, V2.zero]
  · simp [exFlail, misses, partSpeed]
  · simp [exFlail, misses, partSpeed, Channel.impacts, Body.blank, V2.zero]

end Cm
