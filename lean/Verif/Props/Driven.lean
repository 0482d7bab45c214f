import Verif.Props.Rolling
/-! # C126: motors, gears and rotary limits drive their bodies exactly -/
set_option linter.unusedSectionVars false
set_option linter.unusedSimpArgs false
set_option linter.unusedVariables false

namespace Cm
open Spec
variable {K : Type} [Field K] [LinearOrder K] [IsStrictOrderedRing K]

namespace Spec
/-- What a joint does that wants the speed `rel` to be `target`, and can give impulses `j` from `lo` to `hi`, each of which adds `k * j` to the speed: it reaches the target, or
goes as far as it can. -/
structure Drives (k lo hi target rel j : K) : Prop where
  low : lo ≤ j
  high : j ≤ hi
  short : 0 < (target - rel) * k → j = hi
  past : (target - rel) * k < 0 → j = lo

/-- The one joint between the bodies `ia` and `ib`, in this order, is `jt`. -/
structure JoinedBy (w : World K) (ia ib : Nat) (jt : Joint K) : Prop where
  apart : ia ≠ ib
  joint : w.joints.filter (fun l => (l.ia == ia || l.ia == ib) && (l.ib == ia || l.ib == ib)) = [⟨ia, ib, jt⟩]

/-- Nothing but the joints between them acts on the bodies `ia` and `ib` in the step from `w` to `w'`, unless on one that cannot be moved anyway. -/
structure Unaffected (sc : Scene K) (ia ib : Nat) (w w' : World K) : Prop where
  joints : ∀ l ∈ w.joints, ¬ ((l.ia = ia ∨ l.ia = ib) ∧ (l.ib = ia ∨ l.ib = ib)) → ∀ k, k = l.ia ∨ k = l.ib → k = ia ∨ k = ib → Immovable (w.bodies k)
  untouched : ∀ p ∈ w'.active, ∀ k, k = (sc.figs p.1).body ∨ k = (sc.figs p.2).body → k = ia ∨ k = ib → Immovable (w.bodies k)

/-- The body `k` is moved by the step, or it does not turn and cannot be turned. -/
def Borne (t : Tick K) (w : World K) (k : Nat) : Prop := k ∈ t.dyn ∨ (w.bodies k).iInv = 0 ∧ (w.bodies k).w = 0

/-- `P` holds for each of the steps: of the state before it, the step, and the state after it. -/
def EveryStep (M : Mth K) (sc : Scene K) (P : World K → Tick K → World K → Prop) : World K → List (Tick K) → Prop
  | _, [] => True
  | w, t :: ts => P w t (w.step M sc t) ∧ EveryStep M sc P (w.step M sc t) ts
end Spec

/-! ## One number -/

theorem clamp_range {x lo hi : K} (h : lo ≤ hi) : lo ≤ clamp x lo hi ∧ clamp x lo hi ≤ hi := by
  unfold clamp
  split
  · rename_i hx; exact ⟨le_min hx.le h, min_le_right _ _⟩
  · rw [min_eq_left h]; exact ⟨le_rfl, h⟩

theorem clamp_cases {x lo hi : K} (h : lo ≤ hi) : clamp x lo hi = x ∨ (clamp x lo hi = hi ∧ hi ≤ x) ∨ (clamp x lo hi = lo ∧ x ≤ lo) := by
  unfold clamp
  split
  · rcases le_total x hi with h1 | h1
    · exact .inl (min_eq_left h1)
    · exact .inr (.inl ⟨min_eq_right h1, h1⟩)
  · rename_i hx
    exact .inr (.inr ⟨min_eq_left h, not_lt.1 hx⟩)

theorem drive_once {k lo hi t r j : K} (hk : k ≠ 0) (h : lo ≤ hi) :
    Drives k lo hi t (r + k * (clamp (j + (t - r) / k) lo hi - j)) (clamp (j + (t - r) / k) lo hi) := by
  obtain ⟨h1, h2⟩ := clamp_range (x := j + (t - r) / k) h
  have hz : ∀ x, (t - (r + k * (x - j))) * k = (j + (t - r) / k - x) * (k * k) := by
    intro x
    field_simp
    ring
  have hkk : 0 < k * k := mul_self_pos.2 hk
  refine ⟨h1, h2, fun hs => ?_, fun hs => ?_⟩
  · rw [hz] at hs
    have := (pos_iff_pos_of_mul_pos hs).2 hkk
    rcases clamp_cases (x := j + (t - r) / k) h with e | e | e
    · rw [e] at this; linarith
    · exact e.1
    · rw [e.1] at this; linarith [e.2]
  · rw [hz] at hs
    have : j + (t - r) / k - clamp (j + (t - r) / k) lo hi < 0 := by
      by_contra hge
      exact absurd (mul_nonneg (not_lt.1 hge) hkk.le) (not_le.2 hs)
    rcases clamp_cases (x := j + (t - r) / k) h with e | e | e
    · rw [e] at this; linarith
    · rw [e.1] at this; linarith [e.2]
    · exact e.1

theorem drive_fixed {k lo hi t r j : K} (hk : k ≠ 0) (h : Drives k lo hi t r j) : clamp (j + (t - r) / k) lo hi = j := by
  have hkk : 0 < k * k := mul_self_pos.2 hk
  have hz : (t - r) * k = (t - r) / k * (k * k) := by field_simp
  have hle := h.low.trans h.high
  rcases lt_trichotomy ((t - r) / k) 0 with hs | hs | hs
  · have := h.past (by rw [hz]; exact mul_neg_of_neg_of_pos hs hkk)
    unfold clamp
    rw [if_neg (by rw [this]; exact not_lt.2 (by linarith)), min_eq_left hle, this]
  · rw [hs, add_zero]
    unfold clamp
    split
    · exact min_eq_left h.high
    · rename_i hx
      rw [min_eq_left hle]; exact le_antisymm h.low (not_lt.1 hx)
  · have := h.short (by rw [hz]; exact mul_pos hs hkk)
    have e : clamp (j + (t - r) / k) lo hi = hi := by
      unfold clamp
      split
      · exact min_eq_right (by rw [this]; linarith)
      · rename_i hx
        have := not_lt.1 hx
        have := h.low
        rw [min_eq_left hle]; linarith
    rw [e, this]

/-! ## A pair of spinning bodies -/

/-- One turn of the solver: the impulse `x.2.2` is changed so as to bring the relative speed to `t`. -/
def turn (k ratio c lo hi t : K) (x : Body K × Body K × K) : Body K × Body K × K :=
  let j := clamp (x.2.2 + (t - (x.2.1.w * ratio - x.1.w)) / k) lo hi
  let ab := spin x.1 x.2.1 (j - x.2.2) c
  (ab.1, ab.2, j)

theorem turn_frame (k ratio c lo hi t : K) (x : Body K × Body K × K) :
    (turn k ratio c lo hi t x).1 = { x.1 with w := (turn k ratio c lo hi t x).1.w } ∧ (turn k ratio c lo hi t x).2.1 = { x.2.1 with w := (turn k ratio c lo hi t x).2.1.w } := ⟨rfl, rfl⟩

theorem turn_same {k ratio c lo hi t : K} {x : Body K × Body K × K} (hk : k ≠ 0) (h : Drives k lo hi t (x.2.1.w * ratio - x.1.w) x.2.2) : turn k ratio c lo hi t x = x := by
  unfold turn
  dsimp only
  rw [drive_fixed hk h, sub_self]
  obtain ⟨a, b, j⟩ := x
  simp [spin]

theorem turn_drives {k ratio c lo hi t : K} {x : Body K × Body K × K} (hk : k ≠ 0) (hkk : k = x.1.iInv * c + ratio * x.2.1.iInv) (hle : lo ≤ hi) :
    Drives k lo hi t ((turn k ratio c lo hi t x).2.1.w * ratio - (turn k ratio c lo hi t x).1.w) (turn k ratio c lo hi t x).2.2 := by
  have := drive_once (t := t) (r := x.2.1.w * ratio - x.1.w) (j := x.2.2) hk hle
  unfold turn
  dsimp only [spin]
  generalize clamp (x.2.2 + (t - (x.2.1.w * ratio - x.1.w)) / k) lo hi = j at *
  convert this using 1
  rw [hkk]
  ring

theorem turns_drive {k ratio c lo hi t : K} {x : Body K × Body K × K} (hk : k ≠ 0) (hkk : k = x.1.iInv * c + ratio * x.2.1.iInv) (hle : lo ≤ hi) {n : Nat} (hn : n ≠ 0) :
    (turn k ratio c lo hi t)^[n] x = turn k ratio c lo hi t x ∧
      Drives k lo hi t (((turn k ratio c lo hi t)^[n] x).2.1.w * ratio - ((turn k ratio c lo hi t)^[n] x).1.w) ((turn k ratio c lo hi t)^[n] x).2.2 := by
  have h1 := turn_drives (t := t) hk hkk hle
  suffices H : (turn k ratio c lo hi t)^[n] x = turn k ratio c lo hi t x from ⟨H, by rw [H]; exact h1⟩
  obtain ⟨n, rfl⟩ := Nat.exists_eq_succ_of_ne_zero hn
  rw [Function.iterate_succ_apply]
  exact Function.iterate_fixed (turn_same hk h1) n

/-! ## One joint between two bodies -/

/-- What the solver makes of two bodies and the one joint between them. -/
def jointSolve (M : Mth K) (par : Params K) (prevDT dt : K) (dyn : List Nat) (ia ib : Nat) (a b : Body K) (jt : Joint K) : Body K × Body K × Joint K :=
  let t := jt.preStep M par.inf (if ia ∈ dyn then a.updatePosition M dt else a) (if ib ∈ dyn then b.updatePosition M dt else b) dt
  let u := t.2.2.applyCached (if ia ∈ dyn then t.1.updateVelocity par.inf par.gravity (M.pow par.damping dt) dt else t.1)
    (if ib ∈ dyn then t.2.1.updateVelocity par.inf par.gravity (M.pow par.damping dt) dt else t.2.1) (if prevDT ≠ 0 then dt / prevDT else 0)
  (fun x : Body K × Body K × Joint K => x.2.2.applyImpulse M x.1 x.2.1 dt)^[par.iterations] (u.1, u.2, t.2.2)

theorem one_joint (M : Mth K) (par : Params K) (prevDT : K) {dt : K} (hdt : dt ≠ 0) (dyn : List Nat) (bs : Nat → Body K) {ia ib : Nat} (hne : ia ≠ ib) (jt : Joint K) :
    let s' := (⟨bs, [], [⟨ia, ib, jt⟩]⟩ : SolverState K).step M par prevDT ⟨dt, dyn, []⟩
    let r := jointSolve M par prevDT dt dyn ia ib (bs ia) (bs ib) jt
    s'.bodies ia = r.1 ∧ s'.bodies ib = r.2.1 ∧ s'.joints = [⟨ia, ib, r.2.2⟩] := by
  intro s' r
  have hs' : s' = (SolverState.iterate M dt)^[par.iterations] (((SolverState.preStep M par.inf par.slop par.cbias dt
      ⟨fun k => if k ∈ dyn then (bs k).updatePosition M dt else bs k, [], [⟨ia, ib, jt⟩]⟩).velocities M par.inf par.damping par.gravity dyn dt).cached prevDT dt) := by
    show SolverState.step _ _ _ _ _ = _
    unfold SolverState.step
    rw [if_neg hdt]
    rfl
  rw [hs']
  have hit : ∀ (n : Nat) (bs : Nat → Body K) (jt : Joint K), ∃ bs', (SolverState.iterate M dt)^[n] ⟨bs, [], [⟨ia, ib, jt⟩]⟩ =
      ⟨bs', [], [⟨ia, ib, ((fun x : Body K × Body K × Joint K => x.2.2.applyImpulse M x.1 x.2.1 dt)^[n] (bs ia, bs ib, jt)).2.2⟩]⟩ ∧
      bs' ia = ((fun x : Body K × Body K × Joint K => x.2.2.applyImpulse M x.1 x.2.1 dt)^[n] (bs ia, bs ib, jt)).1 ∧
      bs' ib = ((fun x : Body K × Body K × Joint K => x.2.2.applyImpulse M x.1 x.2.1 dt)^[n] (bs ia, bs ib, jt)).2.1 := by
    intro n
    induction n with
    | zero => intro bs jt; exact ⟨bs, rfl, rfl, rfl⟩
    | succ n ih =>
      intro bs jt
      rw [Function.iterate_succ_apply, Function.iterate_succ_apply]
      have e : SolverState.iterate M dt ⟨bs, [], [⟨ia, ib, jt⟩]⟩ =
          ⟨putPair bs ia ib (jt.applyImpulse M (bs ia) (bs ib) dt).1 (jt.applyImpulse M (bs ia) (bs ib) dt).2.1, [], [⟨ia, ib, (jt.applyImpulse M (bs ia) (bs ib) dt).2.2⟩]⟩ := rfl
      rw [e]
      obtain ⟨p1, p2⟩ := put_one bs ia ib (jt.applyImpulse M (bs ia) (bs ib) dt).1 (jt.applyImpulse M (bs ia) (bs ib) dt).2.1 hne
      obtain ⟨bs', h1, h2, h3⟩ := ih (putPair bs ia ib (jt.applyImpulse M (bs ia) (bs ib) dt).1 (jt.applyImpulse M (bs ia) (bs ib) dt).2.1) (jt.applyImpulse M (bs ia) (bs ib) dt).2.2
      rw [p1, p2] at h1 h2 h3
      exact ⟨bs', h1, h2, h3⟩
  generalize hps : (fun k => if k ∈ dyn then (bs k).updatePosition M dt else bs k) = ps
  have pa : ps ia = if ia ∈ dyn then (bs ia).updatePosition M dt else bs ia := by rw [← hps]
  have pb : ps ib = if ib ∈ dyn then (bs ib).updatePosition M dt else bs ib := by rw [← hps]
  have e1 : SolverState.preStep M par.inf par.slop par.cbias dt ⟨ps, [], [⟨ia, ib, jt⟩]⟩ =
      ⟨putPair ps ia ib (jt.preStep M par.inf (ps ia) (ps ib) dt).1 (jt.preStep M par.inf (ps ia) (ps ib) dt).2.1, [], [⟨ia, ib, (jt.preStep M par.inf (ps ia) (ps ib) dt).2.2⟩]⟩ := rfl
  rw [e1]
  obtain ⟨q1, q2⟩ := put_one ps ia ib (jt.preStep M par.inf (ps ia) (ps ib) dt).1 (jt.preStep M par.inf (ps ia) (ps ib) dt).2.1 hne
  generalize hv : putPair ps ia ib (jt.preStep M par.inf (ps ia) (ps ib) dt).1 (jt.preStep M par.inf (ps ia) (ps ib) dt).2.1 = vs at q1 q2 ⊢
  have e2 : SolverState.velocities M par.inf par.damping par.gravity dyn dt ⟨vs, [], [⟨ia, ib, (jt.preStep M par.inf (ps ia) (ps ib) dt).2.2⟩]⟩ =
      ⟨fun k => if k ∈ dyn then (vs k).updateVelocity par.inf par.gravity (M.pow par.damping dt) dt else vs k, [], [⟨ia, ib, (jt.preStep M par.inf (ps ia) (ps ib) dt).2.2⟩]⟩ := rfl
  rw [e2]
  generalize hu : (fun k => if k ∈ dyn then (vs k).updateVelocity par.inf par.gravity (M.pow par.damping dt) dt else vs k) = us
  have ua : us ia = if ia ∈ dyn then (vs ia).updateVelocity par.inf par.gravity (M.pow par.damping dt) dt else vs ia := by rw [← hu]
  have ub : us ib = if ib ∈ dyn then (vs ib).updateVelocity par.inf par.gravity (M.pow par.damping dt) dt else vs ib := by rw [← hu]
  generalize hj : (jt.preStep M par.inf (ps ia) (ps ib) dt).2.2 = j1
  have e3 : SolverState.cached prevDT dt ⟨us, [], [⟨ia, ib, j1⟩]⟩ =
      ⟨putPair us ia ib (j1.applyCached (us ia) (us ib) (if prevDT ≠ 0 then dt / prevDT else 0)).1 (j1.applyCached (us ia) (us ib) (if prevDT ≠ 0 then dt / prevDT else 0)).2, [], [⟨ia, ib, j1⟩]⟩ := rfl
  rw [e3]
  obtain ⟨c1, c2⟩ := put_one us ia ib (j1.applyCached (us ia) (us ib) (if prevDT ≠ 0 then dt / prevDT else 0)).1 (j1.applyCached (us ia) (us ib) (if prevDT ≠ 0 then dt / prevDT else 0)).2 hne
  obtain ⟨bs', h1, h2, h3⟩ := hit par.iterations (putPair us ia ib (j1.applyCached (us ia) (us ib) (if prevDT ≠ 0 then dt / prevDT else 0)).1
    (j1.applyCached (us ia) (us ib) (if prevDT ≠ 0 then dt / prevDT else 0)).2) j1
  rw [h1]
  rw [c1, c2, ua, ub, q1, q2, ← hj, pa, pb] at h2 h3
  refine ⟨h2, h3, ?_⟩
  rw [c1, c2, ua, ub, q1, q2, ← hj, pa, pb]
  rfl

/-- The same in the whole simulation, whatever happens elsewhere. -/
theorem only_joint {M : Mth K} {sc : Scene K} {t : Tick K} {w : World K} (h0 : t.dt ≠ 0) {ia ib : Nat} {jt : Joint K} (hj : JoinedBy w ia ib jt) (h : Unaffected sc ia ib w (w.step M sc t))
    (hmov : ¬ (Immovable (w.bodies ia) ∧ Immovable (w.bodies ib))) :
    let r := jointSolve M sc.par w.prevDT t.dt t.dyn ia ib (w.bodies ia) (w.bodies ib) jt
    (w.step M sc t).bodies ia = r.1 ∧ (w.step M sc t).bodies ib = r.2.1 ∧
      JoinedBy (w.step M sc t) ia ib r.2.2 := by
  intro r
  obtain ⟨e1, e2, -, hbt⟩ := C111_step M sc t w ⟨w.bodies, [], w.joints⟩ rfl rfl
  obtain ⟨-, -, -, g4, -⟩ := step_frame M sc t w h0
  have hw : within (fun k => k == ia || k == ib) (⟨ia, ib, jt⟩ : Link (Joint K)) = true := by simp [within]
  have hcol : ∀ l ∈ collisions M sc t w, ∀ k, k = l.ia ∨ k = l.ib → k = ia ∨ k = ib → Immovable (w.bodies k) := by
    intro l hl k hk
    obtain ⟨x, hx, rfl⟩ := List.mem_map.1 hl
    exact h.untouched x (by rw [g4]; exact hx) k hk
  have hse : ∀ l ∈ collisions M sc t w, within (fun k => k == ia || k == ib) l = true ∨
      (((fun k => k == ia || k == ib) l.ia) = true → Immovable (w.bodies l.ia)) ∧ (((fun k => k == ia || k == ib) l.ib) = true → Immovable (w.bodies l.ib)) := by
    intro l hl
    right
    constructor <;> intro hv <;> simp only [Bool.or_eq_true, beq_iff_eq] at hv
    · exact hcol l hl _ (.inl rfl) hv
    · exact hcol l hl _ (.inr rfl) hv
  have hno : (collisions M sc t w).filter (within fun k => k == ia || k == ib) = [] := by
    rw [List.filter_eq_nil_iff]
    intro l hl hin
    simp only [within, Bool.and_eq_true, Bool.or_eq_true, beq_iff_eq] at hin
    obtain ⟨i, j, hi, hj, hbb⟩ := hbt l hl
    have i1 := hcol l hl _ (.inl rfl) hin.1
    have i2 := hcol l hl _ (.inr rfl) hin.2
    have hd : l.ia ≠ l.ib := hbb
    apply hmov
    rcases hin.1 with e | e <;> rcases hin.2 with e' | e'
    · exact absurd (e.trans e'.symm) hd
    · rw [← e, ← e']; exact ⟨i1, i2⟩
    · rw [← e, ← e']; exact ⟨i2, i1⟩
    · exact absurd (e.trans e'.symm) hd
  have hjs : ∀ l ∈ w.joints, within (fun k => k == ia || k == ib) l = true ∨
      (((fun k => k == ia || k == ib) l.ia) = true → Immovable (w.bodies l.ia)) ∧ (((fun k => k == ia || k == ib) l.ib) = true → Immovable (w.bodies l.ib)) := by
    intro l hl
    by_cases hin : (l.ia = ia ∨ l.ia = ib) ∧ (l.ib = ia ∨ l.ib = ib)
    · left; simp only [within, Bool.and_eq_true, Bool.or_eq_true, beq_iff_eq]; exact hin
    · right
      constructor <;> intro hv <;> simp only [Bool.or_eq_true, beq_iff_eq] at hv
      · exact h.joints l hl hin _ (.inl rfl) hv
      · exact h.joints l hl hin _ (.inr rfl) hv
  have hjo : w.joints.filter (within fun k => k == ia || k == ib) = [⟨ia, ib, jt⟩] := hj.joint
  obtain ⟨g, -⟩ := C115_step (V := fun k => k == ia || k == ib) M sc.par w.prevDT ⟨t.dt, t.dyn, []⟩ ⟨t.dt, t.dyn, collisions M sc t w⟩
    ⟨rfl, fun _ _ => Iff.rfl, by rw [hno]; rfl⟩ ⟨w.bodies, [], [⟨ia, ib, jt⟩]⟩ ⟨w.bodies, [], w.joints⟩
    (fun _ h => absurd h List.not_mem_nil) hse (fun l h => by rw [List.mem_singleton] at h; rw [h]; exact .inl hw) hjs ⟨fun _ _ => rfl, rfl, by rw [hjo]; simp [hw]⟩
  obtain ⟨k1, k2, k3⟩ := one_joint M sc.par w.prevDT h0 t.dyn w.bodies hj.apart jt
  have ga := g.bodies ia (by simp)
  have gb := g.bodies ib (by simp)
  have gj := g.joints
  rw [k3] at gj
  refine ⟨by rw [e1, ga, k1], by rw [e1, gb, k2], hj.apart, ?_⟩
  rw [e2]
  refine Eq.trans gj ?_
  simp [within, List.filter_cons]
  rfl

/-! ## What an angular joint changes -/

/-- Only the spins differ, and only of bodies that can be turned. -/
def Spun (x y : Body K × Body K) : Prop :=
  (y.1 = { x.1 with w := y.1.w } ∧ (x.1.iInv = 0 → y.1.w = x.1.w)) ∧ (y.2 = { x.2 with w := y.2.w } ∧ (x.2.iInv = 0 → y.2.w = x.2.w))

theorem spun_refl (x : Body K × Body K) : Spun x x := ⟨⟨rfl, fun _ => rfl⟩, rfl, fun _ => rfl⟩

theorem spun_trans {x y z : Body K × Body K} (h : Spun x y) (h' : Spun y z) : Spun x z := by
  obtain ⟨⟨a1, a2⟩, b1, b2⟩ := h
  obtain ⟨⟨c1, c2⟩, d1, d2⟩ := h'
  refine ⟨⟨by rw [c1, a1], fun h0 => ?_⟩, by rw [d1, b1], fun h0 => ?_⟩
  · rw [← a2 h0]; exact c2 (by rw [a1]; exact h0)
  · rw [← b2 h0]; exact d2 (by rw [b1]; exact h0)

theorem spun_spin (a b : Body K) (j c : K) : Spun (a, b) (spin a b j c) :=
  ⟨⟨rfl, fun h => by show a.w - j * a.iInv * c = a.w; rw [show a.iInv = 0 from h]; ring⟩, rfl, fun h => by show b.w + j * b.iInv = b.w; rw [show b.iInv = 0 from h]; ring⟩

theorem spun_turn (k ratio c lo hi t : K) (x : Body K × Body K × K) : Spun (x.1, x.2.1) ((turn k ratio c lo hi t x).1, (turn k ratio c lo hi t x).2.1) := spun_spin _ _ _ _

/-- The body when the joints are prepared. -/
def placed (M : Mth K) (dt : K) (dyn : List Nat) (k : Nat) (b : Body K) : Body K := if k ∈ dyn then b.updatePosition M dt else b
/-- The body when the joints act on it. -/
def readied (M : Mth K) (par : Params K) (dt : K) (dyn : List Nat) (k : Nat) (b : Body K) : Body K :=
  if k ∈ dyn then (placed M dt dyn k b).updateVelocity par.inf par.gravity (M.pow par.damping dt) dt else placed M dt dyn k b

theorem readied_frame (M : Mth K) (par : Params K) (dt : K) (dyn : List Nat) (k : Nat) (b : Body K) :
    (readied M par dt dyn k b).iInv = b.iInv ∧ (readied M par dt dyn k b).mInv = b.mInv ∧ (readied M par dt dyn k b).angle = (placed M dt dyn k b).angle ∧
      (readied M par dt dyn k b).wBias = (placed M dt dyn k b).wBias := by
  unfold readied placed
  split
  · rename_i h
    unfold Body.updateVelocity
    split <;> exact ⟨rfl, rfl, rfl, rfl⟩
  · exact ⟨rfl, rfl, rfl, rfl⟩

theorem readied_coast (M : Mth K) (par : Params K) (dt : K) (dyn : List Nat) (k : Nat) (b : Body K) : (readied M par dt dyn k b).w = (coast M par dyn dt k b).w := by
  unfold readied placed coast
  by_cases h : k ∈ dyn
  · rw [if_pos h, if_pos h]
    unfold Body.updateVelocity
    have ht : (b.updatePosition M dt).type par.inf = b.type par.inf := rfl
    rw [ht]
    by_cases hk : b.type par.inf = .kinematic
    · rw [if_pos hk, if_neg (by simp [hk])]; rfl
    · rw [if_neg hk, if_pos ⟨h, hk⟩]; rfl
  · rw [if_neg h, if_neg h, if_neg (by simp [h])]

/-- How the angle goes on, after a step of the length `dt` in which only the spin has been changed after the body was put in its place. -/
theorem placed_angle (M : Mth K) (dt : K) {t : Tick K} {w : World K} {k : Nat} (hc : Borne t w k) (hb : (w.bodies k).wBias = 0) :
    (placed M dt t.dyn k (w.bodies k)).angle = (w.bodies k).angle + (w.bodies k).w * dt ∧ (placed M dt t.dyn k (w.bodies k)).wBias = 0 := by
  unfold placed
  split
  · exact ⟨by show (w.bodies k).angle + ((w.bodies k).w + (w.bodies k).wBias) * dt = _; rw [hb, add_zero], rfl⟩
  · rename_i h
    have := hc.resolve_left h
    exact ⟨by rw [this.2, zero_mul, add_zero], hb⟩

/-! ## The gear -/

theorem gear_iter (M : Mth K) {k dt : K} (n : Nat) : ∀ (a b : Body K) (g : GearJoint K), g.iSum = 1 / k →
    (fun x : Body K × Body K × Joint K => x.2.2.applyImpulse M x.1 x.2.1 dt)^[n] (a, b, .gear g) =
      (fun y : Body K × Body K × K => (y.1, y.2.1, Joint.gear { g with jAcc := y.2.2 })) ((turn k g.ratio g.ratioInv (-(g.maxForce * dt)) (g.maxForce * dt) g.bias)^[n] (a, b, g.jAcc)) := by
  induction n with
  | zero => intro a b g _; rfl
  | succ n ih =>
    intro a b g hg
    rw [Function.iterate_succ_apply, Function.iterate_succ_apply]
    have e : (Joint.gear g).applyImpulse M a b dt = (fun y : Body K × Body K × K => (y.1, y.2.1, Joint.gear { g with jAcc := y.2.2 }))
        (turn k g.ratio g.ratioInv (-(g.maxForce * dt)) (g.maxForce * dt) g.bias (a, b, g.jAcc)) := by
      unfold Joint.applyImpulse GearJoint.applyImpulse turn
      dsimp only
      rw [hg, mul_one_div]
    dsimp only
    rw [e]
    exact ih _ _ { g with jAcc := (turn k g.ratio g.ratioInv (-(g.maxForce * dt)) (g.maxForce * dt) g.bias (a, b, g.jAcc)).2.2 } hg

theorem spun_turns (k ratio c lo hi t : K) (n : Nat) (x : Body K × Body K × K) :
    Spun (x.1, x.2.1) (((turn k ratio c lo hi t)^[n] x).1, ((turn k ratio c lo hi t)^[n] x).2.1) := by
  induction n with
  | zero => exact spun_refl _
  | succ n ih => rw [Function.iterate_succ_apply']; exact spun_trans ih (spun_turn ..)

theorem gear_solve (M : Mth K) {par : Params K} (hn : par.iterations ≠ 0) (prevDT dt : K) (dyn : List Nat) (ia ib : Nat) (a b : Body K) (g : GearJoint K)
    (hk : a.iInv * g.ratioInv + g.ratio * b.iInv ≠ 0) (hF : 0 ≤ g.maxForce * dt) :
    let A := placed M dt dyn ia a
    let B := placed M dt dyn ib b
    let r := jointSolve M par prevDT dt dyn ia ib a b (.gear g)
    Spun (readied M par dt dyn ia a, readied M par dt dyn ib b) (r.1, r.2.1) ∧ ∃ j, r.2.2 = .gear { g.preStep M A B dt with jAcc := j } ∧
      Drives (a.iInv * g.ratioInv + g.ratio * b.iInv) (-(g.maxForce * dt)) (g.maxForce * dt) (g.preStep M A B dt).bias (r.2.1.w * g.ratio - r.1.w) j := by
  intro A B r
  have hA : A.iInv = a.iInv := by show (placed M dt dyn ia a).iInv = _; unfold placed; split <;> rfl
  have hB : B.iInv = b.iInv := by show (placed M dt dyn ib b).iInv = _; unfold placed; split <;> rfl
  obtain ⟨a1, -⟩ := readied_frame M par dt dyn ia a
  obtain ⟨b1, -⟩ := readied_frame M par dt dyn ib b
  generalize hg1 : g.preStep M A B dt = g1
  have f1 : g1.iSum = 1 / (a.iInv * g.ratioInv + g.ratio * b.iInv) := by rw [← hg1, ← hA, ← hB]; rfl
  have f2 : g1.ratio = g.ratio ∧ g1.ratioInv = g.ratioInv ∧ g1.maxForce = g.maxForce := by rw [← hg1]; exact ⟨rfl, rfl, rfl⟩
  generalize hco : (if prevDT ≠ 0 then dt / prevDT else 0) = co
  have hr : r = (fun x : Body K × Body K × Joint K => x.2.2.applyImpulse M x.1 x.2.1 dt)^[par.iterations]
      ((spin (readied M par dt dyn ia a) (readied M par dt dyn ib b) (g1.jAcc * co) g1.ratioInv).1,
        (spin (readied M par dt dyn ia a) (readied M par dt dyn ib b) (g1.jAcc * co) g1.ratioInv).2, .gear g1) := by
    rw [← hg1, ← hco]; rfl
  rw [gear_iter M par.iterations _ _ _ f1, f2.1, f2.2.1, f2.2.2] at hr
  have hsp := spun_spin (readied M par dt dyn ia a) (readied M par dt dyn ib b) (g1.jAcc * co) g.ratioInv
  generalize spin (readied M par dt dyn ia a) (readied M par dt dyn ib b) (g1.jAcc * co) g.ratioInv = ab at hr hsp
  have hi : ab.1.iInv = a.iInv ∧ ab.2.iInv = b.iInv := ⟨by rw [hsp.1.1]; exact a1, by rw [hsp.2.1]; exact b1⟩
  have ht := turns_drive (k := a.iInv * g.ratioInv + g.ratio * b.iInv) (t := g1.bias) (ratio := g.ratio) (c := g.ratioInv) (x := (ab.1, ab.2, g1.jAcc)) (lo := -(g.maxForce * dt)) (hi := g.maxForce * dt) hk
    (by rw [hi.1, hi.2]) (by linarith) hn
  have hs := spun_turns (a.iInv * g.ratioInv + g.ratio * b.iInv) g.ratio g.ratioInv (-(g.maxForce * dt)) (g.maxForce * dt) g1.bias par.iterations (ab.1, ab.2, g1.jAcc)
  rw [hr]
  refine ⟨spun_trans hsp hs, ((turn (a.iInv * g.ratioInv + g.ratio * b.iInv) g.ratio g.ratioInv (-(g.maxForce * dt)) (g.maxForce * dt) g1.bias)^[par.iterations] (ab.1, ab.2, g1.jAcc)).2.2, ?_, ht.2⟩
  generalize ((turn (a.iInv * g.ratioInv + g.ratio * b.iInv) g.ratio g.ratioInv (-(g.maxForce * dt)) (g.maxForce * dt) g1.bias)^[par.iterations] (ab.1, ab.2, g1.jAcc)) = y
  dsimp only
  rw [← f2.1, ← f2.2.1]

/-! ## The motor -/

theorem motor_iter (M : Mth K) {k dt : K} (n : Nat) : ∀ (a b : Body K) (g : SimpleMotor K), g.iSum = 1 / k →
    (fun x : Body K × Body K × Joint K => x.2.2.applyImpulse M x.1 x.2.1 dt)^[n] (a, b, .motor g) =
      (fun y : Body K × Body K × K => (y.1, y.2.1, Joint.motor { g with jAcc := y.2.2 })) ((turn k 1 1 (-(g.maxForce * dt)) (g.maxForce * dt) (-g.rate))^[n] (a, b, g.jAcc)) := by
  induction n with
  | zero => intro a b g _; rfl
  | succ n ih =>
    intro a b g hg
    rw [Function.iterate_succ_apply, Function.iterate_succ_apply]
    have e : (Joint.motor g).applyImpulse M a b dt = (fun y : Body K × Body K × K => (y.1, y.2.1, Joint.motor { g with jAcc := y.2.2 }))
        (turn k 1 1 (-(g.maxForce * dt)) (g.maxForce * dt) (-g.rate) (a, b, g.jAcc)) := by
      unfold Joint.applyImpulse SimpleMotor.applyImpulse turn
      dsimp only
      rw [hg, mul_one_div, mul_one, show -(b.w - a.w + g.rate) = -g.rate - (b.w - a.w) by ring]
    dsimp only
    rw [e]
    exact ih _ _ { g with jAcc := (turn k 1 1 (-(g.maxForce * dt)) (g.maxForce * dt) (-g.rate) (a, b, g.jAcc)).2.2 } hg

theorem motor_solve (M : Mth K) {par : Params K} (hn : par.iterations ≠ 0) (prevDT dt : K) (dyn : List Nat) (ia ib : Nat) (a b : Body K) (g : SimpleMotor K)
    (hk : a.iInv + b.iInv ≠ 0) (hF : 0 ≤ g.maxForce * dt) :
    let A := placed M dt dyn ia a
    let B := placed M dt dyn ib b
    let r := jointSolve M par prevDT dt dyn ia ib a b (.motor g)
    Spun (readied M par dt dyn ia a, readied M par dt dyn ib b) (r.1, r.2.1) ∧ ∃ j, r.2.2 = .motor { g.preStep A B with jAcc := j } ∧
      Drives (a.iInv + b.iInv) (-(g.maxForce * dt)) (g.maxForce * dt) (-g.rate) (r.2.1.w - r.1.w) j := by
  intro A B r
  have hA : A.iInv = a.iInv := by show (placed M dt dyn ia a).iInv = _; unfold placed; split <;> rfl
  have hB : B.iInv = b.iInv := by show (placed M dt dyn ib b).iInv = _; unfold placed; split <;> rfl
  obtain ⟨a1, -⟩ := readied_frame M par dt dyn ia a
  obtain ⟨b1, -⟩ := readied_frame M par dt dyn ib b
  generalize hg1 : g.preStep A B = g1
  have f1 : g1.iSum = 1 / (a.iInv + b.iInv) := by rw [← hg1, ← hA, ← hB]; rfl
  have f2 : g1.rate = g.rate ∧ g1.maxForce = g.maxForce := by rw [← hg1]; exact ⟨rfl, rfl⟩
  generalize hco : (if prevDT ≠ 0 then dt / prevDT else 0) = co
  have hr : r = (fun x : Body K × Body K × Joint K => x.2.2.applyImpulse M x.1 x.2.1 dt)^[par.iterations]
      ((spin (readied M par dt dyn ia a) (readied M par dt dyn ib b) (g1.jAcc * co) 1).1,
        (spin (readied M par dt dyn ia a) (readied M par dt dyn ib b) (g1.jAcc * co) 1).2, .motor g1) := by
    rw [← hg1, ← hco]; rfl
  rw [motor_iter M par.iterations _ _ _ f1, f2.1, f2.2] at hr
  have hsp := spun_spin (readied M par dt dyn ia a) (readied M par dt dyn ib b) (g1.jAcc * co) 1
  generalize spin (readied M par dt dyn ia a) (readied M par dt dyn ib b) (g1.jAcc * co) 1 = ab at hr hsp
  have hi : ab.1.iInv = a.iInv ∧ ab.2.iInv = b.iInv := ⟨by rw [hsp.1.1]; exact a1, by rw [hsp.2.1]; exact b1⟩
  have ht := turns_drive (k := a.iInv + b.iInv) (t := -g.rate) (ratio := 1) (c := 1) (x := (ab.1, ab.2, g1.jAcc)) (lo := -(g.maxForce * dt)) (hi := g.maxForce * dt) hk
    (by rw [hi.1, hi.2]; ring) (by linarith) hn
  have hs := spun_turns (a.iInv + b.iInv) 1 1 (-(g.maxForce * dt)) (g.maxForce * dt) (-g.rate) par.iterations (ab.1, ab.2, g1.jAcc)
  rw [hr]
  refine ⟨spun_trans hsp hs, ((turn (a.iInv + b.iInv) 1 1 (-(g.maxForce * dt)) (g.maxForce * dt) (-g.rate))^[par.iterations] (ab.1, ab.2, g1.jAcc)).2.2, ?_, ?_⟩
  · generalize ((turn (a.iInv + b.iInv) 1 1 (-(g.maxForce * dt)) (g.maxForce * dt) (-g.rate))^[par.iterations] (ab.1, ab.2, g1.jAcc)) = y
    dsimp only
    rw [← f2.1]
  have := ht.2
  rw [mul_one] at this
  exact this

/-! ## The limit -/

theorem limit_iter (M : Mth K) {k dt : K} (n : Nat) : ∀ (a b : Body K) (g : RotaryLimitJoint K), g.iSum = 1 / k → g.bias ≠ 0 →
    (fun x : Body K × Body K × Joint K => x.2.2.applyImpulse M x.1 x.2.1 dt)^[n] (a, b, .rotaryLimit g) =
      (fun y : Body K × Body K × K => (y.1, y.2.1, Joint.rotaryLimit { g with jAcc := y.2.2 }))
        ((turn k 1 1 (if g.bias < 0 then 0 else -(g.maxForce * dt)) (if g.bias < 0 then g.maxForce * dt else 0) (-g.bias))^[n] (a, b, g.jAcc)) := by
  induction n with
  | zero => intro a b g _ _; rfl
  | succ n ih =>
    intro a b g hg h0
    rw [Function.iterate_succ_apply, Function.iterate_succ_apply]
    have e : (Joint.rotaryLimit g).applyImpulse M a b dt = (fun y : Body K × Body K × K => (y.1, y.2.1, Joint.rotaryLimit { g with jAcc := y.2.2 }))
        (turn k 1 1 (if g.bias < 0 then 0 else -(g.maxForce * dt)) (if g.bias < 0 then g.maxForce * dt else 0) (-g.bias) (a, b, g.jAcc)) := by
      unfold Joint.applyImpulse RotaryLimitJoint.applyImpulse turn
      dsimp only
      rw [if_neg h0, hg, mul_one_div, mul_one, show -(g.bias + (b.w - a.w)) = -g.bias - (b.w - a.w) by ring]
      by_cases hlt : g.bias < 0
      · simp only [if_pos hlt]
      · simp only [if_neg hlt]
    dsimp only
    rw [e]
    exact ih _ _ { g with jAcc := (turn k 1 1 (if g.bias < 0 then 0 else -(g.maxForce * dt)) (if g.bias < 0 then g.maxForce * dt else 0) (-g.bias) (a, b, g.jAcc)).2.2 } hg h0

theorem limit_solve (M : Mth K) {par : Params K} (hn : par.iterations ≠ 0) (prevDT dt : K) (dyn : List Nat) (ia ib : Nat) (a b : Body K) (g : RotaryLimitJoint K)
    (hk : a.iInv + b.iInv ≠ 0) (hF : 0 ≤ g.maxForce * dt) :
    let A := placed M dt dyn ia a
    let B := placed M dt dyn ib b
    let r := jointSolve M par prevDT dt dyn ia ib a b (.rotaryLimit g)
    let β := (g.preStep M A B dt).bias
    (β = 0 → r = (readied M par dt dyn ia a, readied M par dt dyn ib b, .rotaryLimit { g.preStep M A B dt with jAcc := 0 })) ∧
    (β ≠ 0 → Spun (readied M par dt dyn ia a, readied M par dt dyn ib b) (r.1, r.2.1) ∧ ∃ j, r.2.2 = .rotaryLimit { g.preStep M A B dt with jAcc := j } ∧
      Drives (a.iInv + b.iInv) (if β < 0 then 0 else -(g.maxForce * dt)) (if β < 0 then g.maxForce * dt else 0) (-β) (r.2.1.w - r.1.w) j) := by
  intro A B r β
  have hA : A.iInv = a.iInv := by show (placed M dt dyn ia a).iInv = _; unfold placed; split <;> rfl
  have hB : B.iInv = b.iInv := by show (placed M dt dyn ib b).iInv = _; unfold placed; split <;> rfl
  obtain ⟨a1, -⟩ := readied_frame M par dt dyn ia a
  obtain ⟨b1, -⟩ := readied_frame M par dt dyn ib b
  have f0 : β = 0 → (g.preStep M A B dt).jAcc = 0 := fun h => if_pos h
  have f1 : (g.preStep M A B dt).iSum = 1 / (a.iInv + b.iInv) := by rw [← hA, ← hB]; rfl
  have f2 : (g.preStep M A B dt).maxForce = g.maxForce := rfl
  have hβ : (g.preStep M A B dt).bias = β := rfl
  clear_value β
  generalize hco : (if prevDT ≠ 0 then dt / prevDT else 0) = co
  have hr : r = (fun x : Body K × Body K × Joint K => x.2.2.applyImpulse M x.1 x.2.1 dt)^[par.iterations]
      ((spin (readied M par dt dyn ia a) (readied M par dt dyn ib b) ((g.preStep M A B dt).jAcc * co) 1).1,
        (spin (readied M par dt dyn ia a) (readied M par dt dyn ib b) ((g.preStep M A B dt).jAcc * co) 1).2, .rotaryLimit (g.preStep M A B dt)) := by
    rw [← hco]; rfl
  generalize g.preStep M A B dt = g1 at *
  clear_value r
  subst hβ
  constructor
  · intro h0
    have hj := f0 h0
    rw [hr, hj, zero_mul, show spin (readied M par dt dyn ia a) (readied M par dt dyn ib b) 0 1 = (readied M par dt dyn ia a, readied M par dt dyn ib b) by simp [spin]]
    refine Eq.trans (Function.iterate_fixed ?_ _) ?_
    · show (Joint.rotaryLimit g1).applyImpulse M _ _ dt = _
      unfold Joint.applyImpulse RotaryLimitJoint.applyImpulse
      dsimp only
      rw [if_pos h0]
    · rw [← hj]
  · intro h0
    rw [limit_iter M par.iterations _ _ _ f1 h0, f2] at hr
    have hsp := spun_spin (readied M par dt dyn ia a) (readied M par dt dyn ib b) (g1.jAcc * co) 1
    generalize spin (readied M par dt dyn ia a) (readied M par dt dyn ib b) (g1.jAcc * co) 1 = ab at hr hsp
    have hi : ab.1.iInv = a.iInv ∧ ab.2.iInv = b.iInv := ⟨by rw [hsp.1.1]; exact a1, by rw [hsp.2.1]; exact b1⟩
    have ht := turns_drive (k := a.iInv + b.iInv) (t := -g1.bias) (ratio := 1) (c := 1) (x := (ab.1, ab.2, g1.jAcc)) (lo := if g1.bias < 0 then 0 else -(g.maxForce * dt))
      (hi := if g1.bias < 0 then g.maxForce * dt else 0) hk (by rw [hi.1, hi.2]; ring) (by split <;> linarith) hn
    have hs := spun_turns (a.iInv + b.iInv) 1 1 (if g1.bias < 0 then 0 else -(g.maxForce * dt)) (if g1.bias < 0 then g.maxForce * dt else 0) (-g1.bias) par.iterations (ab.1, ab.2, g1.jAcc)
    rw [hr]
    refine ⟨spun_trans hsp hs, _, rfl, ?_⟩
    have := ht.2
    rw [mul_one] at this
    exact this

/-! ## In the whole simulation -/

namespace Spec
/-- How far the gear's bodies are from where they should be. -/
def astray (ratio phase : K) (ia ib : Nat) (w : World K) : K := (w.bodies ib).angle * ratio - (w.bodies ia).angle - phase
/-- The angle between the bodies. -/
def between (ia ib : Nat) (w : World K) : K := (w.bodies ib).angle - (w.bodies ia).angle
/-- How fast that changes. -/
def turning (ratio : K) (ia ib : Nat) (w : World K) : K := (w.bodies ib).w * ratio - (w.bodies ia).w
/-- The part `1 - p` of an error is taken away, but not more than `D`. -/
def nearer (p D e : K) : K := e - upTo D ((1 - p) * e)

/-- What does not change about the bodies, and how they turn. -/
structure Onward (dt : K) (ia ib : Nat) (w w' : World K) : Prop where
  mass : (w'.bodies ia).iInv = (w.bodies ia).iInv ∧ (w'.bodies ib).iInv = (w.bodies ib).iInv
  push : (w'.bodies ia).wBias = 0 ∧ (w'.bodies ib).wBias = 0
  angle : (w'.bodies ia).angle = (w.bodies ia).angle + (w.bodies ia).w * dt ∧ (w'.bodies ib).angle = (w.bodies ib).angle + (w.bodies ib).w * dt

/-- The step from `w` to `w'` has the length `dt`, moves the bodies `ia` and `ib`, and nothing but the joints between them acts on them. -/
structure Plain (sc : Scene K) (dt : K) (ia ib : Nat) (w : World K) (t : Tick K) (w' : World K) : Prop where
  length : t.dt = dt
  borne : Borne t w ia ∧ Borne t w ib
  free : Unaffected sc ia ib w w'
  unpushed : (w.bodies ia).wBias = 0 ∧ (w.bodies ib).wBias = 0
end Spec

theorem clamp_upTo {D : K} (hD : 0 ≤ D) (x : K) : clamp x (-D) D = upTo D x := by
  unfold clamp upTo
  split
  · rename_i h; rw [max_eq_right (le_min h.le (by linarith))]
  · rename_i h
    have := not_lt.1 h
    rw [min_eq_left (by linarith), min_eq_left (by linarith), max_eq_left this]

theorem upTo_neg {D : K} (hD : 0 ≤ D) (x : K) : upTo D (-x) = -upTo D x := by
  unfold upTo
  rcases le_total x D with h1 | h1 <;> rcases le_total (-x) D with h2 | h2
  · rw [min_eq_left h1, min_eq_left h2, max_eq_right (by linarith), max_eq_right (by linarith)]
  · rw [min_eq_left h1, min_eq_right h2, max_eq_right (by linarith), max_eq_left (by linarith)]; ring
  · rw [min_eq_right h1, min_eq_left h2, max_eq_left (by linarith), max_eq_right (by linarith)]
  · rw [min_eq_right h1, min_eq_right h2, max_eq_right (by linarith)]; linarith

theorem upTo_mul {D c : K} (hc : 0 ≤ c) (x : K) : upTo (D * c) (x * c) = upTo D x * c := by
  unfold upTo
  rw [← min_mul_of_nonneg _ _ hc, ← neg_mul, ← max_mul_of_nonneg _ _ hc]

theorem upTo_pos {D x : K} (hD : 0 < D) (hx : 0 < x) : 0 < upTo D x := lt_of_lt_of_le (lt_min hx hD) (le_max_right _ _)

theorem plain_onward {M : Mth K} {sc : Scene K} {t : Tick K} {w : World K} {ia ib : Nat} {jt : Joint K}
    (h : Plain sc t.dt ia ib w t (w.step M sc t)) {r : Body K × Body K × Joint K}
    (hs : Spun (readied M sc.par t.dt t.dyn ia (w.bodies ia), readied M sc.par t.dt t.dyn ib (w.bodies ib)) (r.1, r.2.1))
    (ea : (w.step M sc t).bodies ia = r.1) (eb : (w.step M sc t).bodies ib = r.2.1) :
    Onward t.dt ia ib w (w.step M sc t) ∧
      (placed M t.dt t.dyn ia (w.bodies ia)).angle = ((w.step M sc t).bodies ia).angle ∧ (placed M t.dt t.dyn ib (w.bodies ib)).angle = ((w.step M sc t).bodies ib).angle := by
  obtain ⟨a1, -, a3, a4⟩ := readied_frame M sc.par t.dt t.dyn ia (w.bodies ia)
  obtain ⟨b1, -, b3, b4⟩ := readied_frame M sc.par t.dt t.dyn ib (w.bodies ib)
  obtain ⟨p1, p2⟩ := placed_angle M t.dt h.borne.1 h.unpushed.1
  obtain ⟨q1, q2⟩ := placed_angle M t.dt h.borne.2 h.unpushed.2
  obtain ⟨⟨s1, -⟩, s2, -⟩ := hs
  dsimp only at s1 s2
  refine ⟨⟨⟨?_, ?_⟩, ⟨?_, ?_⟩, ?_, ?_⟩, ?_, ?_⟩
  · rw [ea, s1]; exact a1
  · rw [eb, s2]; exact b1
  · rw [ea, s1]; exact a4.trans p2
  · rw [eb, s2]; exact b4.trans q2
  · rw [ea, s1]; exact a3.trans p1
  · rw [eb, s2]; exact b3.trans q1
  · rw [ea, s1]; exact a3.symm
  · rw [eb, s2]; exact b3.symm

theorem movable_of {a b : Body K} {c ratio : K} (hk : a.iInv * c + ratio * b.iInv ≠ 0) : ¬ (Immovable a ∧ Immovable b) := by
  rintro ⟨h1, h2⟩
  exact hk (by rw [h1.2, h2.2]; ring)

/-- **C126.** One step with a gear: the gear gives the bodies exactly the speed with which it wants to take its error away, or as much of it as its greatest force allows. -/
theorem C126_gear_step {M : Mth K} {sc : Scene K} (hn : sc.par.iterations ≠ 0) {w : World K} {t : Tick K} {ia ib : Nat} {g : GearJoint K} (h0 : 0 < t.dt)
    (hj : JoinedBy w ia ib (.gear g)) (h : Plain sc t.dt ia ib w t (w.step M sc t)) (hk : (w.bodies ia).iInv * g.ratioInv + g.ratio * (w.bodies ib).iInv ≠ 0)
    (hF : 0 ≤ g.maxForce) (hB : 0 ≤ g.maxBias) :
    let w' := w.step M sc t
    let F := g.maxForce * t.dt
    Onward t.dt ia ib w w' ∧ ∃ g', JoinedBy w' ia ib (.gear g') ∧ (g'.toJointCfg = g.toJointCfg ∧ g'.phase = g.phase ∧ g'.ratio = g.ratio ∧ g'.ratioInv = g.ratioInv) ∧
      Drives ((w.bodies ia).iInv * g.ratioInv + g.ratio * (w.bodies ib).iInv) (-F) F (-upTo g.maxBias ((1 - M.pow g.errorBias t.dt) * astray g.ratio g.phase ia ib w' / t.dt))
        (turning g.ratio ia ib w') g'.jAcc := by
  intro w' F
  obtain ⟨ea, eb, ej⟩ := only_joint h0.ne' hj h.free (movable_of hk)
  obtain ⟨hs, j, r1, r2⟩ := gear_solve M hn w.prevDT t.dt t.dyn ia ib (w.bodies ia) (w.bodies ib) g hk (mul_nonneg hF h0.le)
  obtain ⟨hon, pa, pb⟩ := plain_onward (jt := .gear g) h hs ea eb
  rw [r1] at ej
  refine ⟨hon, _, ej, ⟨rfl, rfl, rfl, rfl⟩, ?_⟩
  rw [← ea, ← eb] at r2
  have hb : (g.preStep M (placed M t.dt t.dyn ia (w.bodies ia)) (placed M t.dt t.dyn ib (w.bodies ib)) t.dt).bias =
      -upTo g.maxBias ((1 - M.pow g.errorBias t.dt) * astray g.ratio g.phase ia ib w' / t.dt) := by
    show clamp _ _ _ = _
    rw [clamp_upTo hB, ← upTo_neg hB, pa, pb]
    unfold astray biasCoef
    congr 1
    ring
  rw [hb] at r2
  exact r2

/-- **C126.** One step with a motor: the bodies turn against each other exactly with the motor's rate, or the motor pushes with all its force in that direction. -/
theorem C126_motor_step {M : Mth K} {sc : Scene K} (hn : sc.par.iterations ≠ 0) {w : World K} {t : Tick K} {ia ib : Nat} {g : SimpleMotor K} (h0 : 0 < t.dt)
    (hj : JoinedBy w ia ib (.motor g)) (h : Plain sc t.dt ia ib w t (w.step M sc t)) (hk : (w.bodies ia).iInv + (w.bodies ib).iInv ≠ 0) (hF : 0 ≤ g.maxForce) :
    let w' := w.step M sc t
    let F := g.maxForce * t.dt
    Onward t.dt ia ib w w' ∧ ∃ g', JoinedBy w' ia ib (.motor g') ∧ (g'.toJointCfg = g.toJointCfg ∧ g'.rate = g.rate) ∧
      Drives ((w.bodies ia).iInv + (w.bodies ib).iInv) (-F) F (-g.rate) (turning 1 ia ib w') g'.jAcc := by
  intro w' F
  obtain ⟨ea, eb, ej⟩ := only_joint h0.ne' hj h.free (movable_of (c := 1) (ratio := 1) (by rw [mul_one, one_mul]; exact hk))
  obtain ⟨hs, j, r1, r2⟩ := motor_solve M hn w.prevDT t.dt t.dyn ia ib (w.bodies ia) (w.bodies ib) g hk (mul_nonneg hF h0.le)
  obtain ⟨hon, -⟩ := plain_onward (jt := .motor g) h hs ea eb
  rw [r1] at ej
  refine ⟨hon, _, ej, ⟨rfl, rfl⟩, ?_⟩
  rw [← ea, ← eb] at r2
  unfold turning
  rw [mul_one]
  exact r2

/-- **C126.** One step with a rotary limit: inside the limits the bodies turn as if there were no joint; beyond one, the joint only ever pushes back, and exactly as much as it takes to
give the bodies the speed with which it wants to take the excess away, if its greatest force allows that. -/
theorem C126_limit_step {M : Mth K} {sc : Scene K} (hn : sc.par.iterations ≠ 0) {w : World K} {t : Tick K} {ia ib : Nat} {g : RotaryLimitJoint K} (h0 : 0 < t.dt)
    (hj : JoinedBy w ia ib (.rotaryLimit g)) (h : Plain sc t.dt ia ib w t (w.step M sc t)) (hk : (w.bodies ia).iInv + (w.bodies ib).iInv ≠ 0)
    (hF : 0 ≤ g.maxForce) (hB : 0 < g.maxBias) (hp : M.pow g.errorBias t.dt < 1) (hm : g.min ≤ g.max) :
    let w' := w.step M sc t
    let F := g.maxForce * t.dt
    let k := (w.bodies ia).iInv + (w.bodies ib).iInv
    Onward t.dt ia ib w w' ∧ ∃ g', JoinedBy w' ia ib (.rotaryLimit g') ∧ (g'.toJointCfg = g.toJointCfg ∧ g'.min = g.min ∧ g'.max = g.max) ∧
      (g.min ≤ between ia ib w' → between ia ib w' ≤ g.max → g'.jAcc = 0 ∧ (w'.bodies ia).w = (coast M sc.par t.dyn t.dt ia (w.bodies ia)).w ∧ (w'.bodies ib).w = (coast M sc.par t.dyn t.dt ib (w.bodies ib)).w) ∧
      (g.max < between ia ib w' → Drives k (-F) 0 (-upTo g.maxBias ((1 - M.pow g.errorBias t.dt) * (between ia ib w' - g.max) / t.dt)) (turning 1 ia ib w') g'.jAcc) ∧
      (between ia ib w' < g.min → Drives k 0 F (upTo g.maxBias ((1 - M.pow g.errorBias t.dt) * (g.min - between ia ib w') / t.dt)) (turning 1 ia ib w') g'.jAcc) := by
  intro w' F k
  obtain ⟨ea, eb, ej⟩ := only_joint h0.ne' hj h.free (movable_of (c := 1) (ratio := 1) (by rw [mul_one, one_mul]; exact hk))
  obtain ⟨s0, s1⟩ := limit_solve M hn w.prevDT t.dt t.dyn ia ib (w.bodies ia) (w.bodies ib) g hk (mul_nonneg hF h0.le)
  have hsp : Spun (readied M sc.par t.dt t.dyn ia (w.bodies ia), readied M sc.par t.dt t.dyn ib (w.bodies ib))
      ((jointSolve M sc.par w.prevDT t.dt t.dyn ia ib (w.bodies ia) (w.bodies ib) (.rotaryLimit g)).1, (jointSolve M sc.par w.prevDT t.dt t.dyn ia ib (w.bodies ia) (w.bodies ib) (.rotaryLimit g)).2.1) := by
    by_cases hb : (g.preStep M (placed M t.dt t.dyn ia (w.bodies ia)) (placed M t.dt t.dyn ib (w.bodies ib)) t.dt).bias = 0
    · rw [s0 hb]; exact spun_refl _
    · exact (s1 hb).1
  obtain ⟨hon, pa, pb⟩ := plain_onward (jt := .rotaryLimit g) h hsp ea eb
  have hbias : (g.preStep M (placed M t.dt t.dyn ia (w.bodies ia)) (placed M t.dt t.dyn ib (w.bodies ib)) t.dt).bias =
      upTo g.maxBias ((1 - M.pow g.errorBias t.dt) * -(if between ia ib w' > g.max then g.max - between ia ib w' else if between ia ib w' < g.min then g.min - between ia ib w' else 0) / t.dt) := by
    show clamp _ _ _ = _
    rw [clamp_upTo hB.le, pa, pb]
    show upTo _ _ = _
    unfold biasCoef between
    rw [neg_mul, mul_neg]
  have sg : ∀ x, 0 < x → 0 < upTo g.maxBias ((1 - M.pow g.errorBias t.dt) * x / t.dt) := fun x hx => upTo_pos hB (div_pos (mul_pos (by linarith) hx) h0)
  refine ⟨hon, ?_⟩
  generalize hpre : g.preStep M (placed M t.dt t.dyn ia (w.bodies ia)) (placed M t.dt t.dyn ib (w.bodies ib)) t.dt = g1 at s0 s1 hbias
  have hset : g1.toJointCfg = g.toJointCfg ∧ g1.min = g.min ∧ g1.max = g.max := by rw [← hpre]; exact ⟨rfl, rfl, rfl⟩
  by_cases hb : g1.bias = 0
  · have e := s0 hb
    rw [e] at ea eb ej
    refine ⟨_, ej, hset, fun _ _ => ⟨rfl, by rw [ea]; exact readied_coast .., by rw [eb]; exact readied_coast ..⟩, fun hlt => ?_, fun hlt => ?_⟩
    · rw [if_pos hlt, neg_sub] at hbias
      exact absurd (hbias.symm.trans hb) (sg _ (sub_pos.2 hlt)).ne'
    · rw [if_neg (by linarith : ¬ between ia ib w' > g.max), if_pos hlt, mul_neg, neg_div, upTo_neg hB.le] at hbias
      have := sg _ (sub_pos.2 hlt)
      rw [hb] at hbias
      linarith
  · obtain ⟨-, j, r1, r2⟩ := s1 hb
    rw [r1] at ej
    rw [← ea, ← eb] at r2
    have ht : turning 1 ia ib w' = ((w.step M sc t).bodies ib).w - ((w.step M sc t).bodies ia).w := by unfold turning; rw [mul_one]
    refine ⟨_, ej, hset, fun h1 h2 => ?_, fun hlt => ?_, fun hlt => ?_⟩
    · rw [if_neg (not_lt.2 h2), if_neg (not_lt.2 h1), neg_zero, mul_zero, zero_div] at hbias
      refine absurd (hbias.trans ?_) hb
      unfold upTo
      rw [min_eq_left hB.le, max_eq_right (by linarith)]
    · rw [if_pos hlt, neg_sub] at hbias
      have hp := sg _ (sub_pos.2 hlt)
      rw [← hbias] at hp ⊢
      rw [if_neg hp.le.not_gt, if_neg hp.le.not_gt] at r2
      rw [ht]
      exact r2
    · rw [if_neg (by linarith : ¬ between ia ib w' > g.max), if_pos hlt, mul_neg, neg_div, upTo_neg hB.le] at hbias
      have hp := sg _ (sub_pos.2 hlt)
      have hb' : g1.bias < 0 := by rw [hbias]; linarith
      rw [if_pos hb', if_pos hb', hbias, neg_neg] at r2
      rw [ht]
      exact r2

/-! ## Over any number of steps -/

theorem drives_reached {k F target rel j : K} (h : Drives k (-F) F target rel j) (hk : k ≠ 0) (hj : |j| < F) : rel = target := by
  obtain ⟨h1, h2⟩ := abs_lt.1 hj
  by_contra hne
  have : (target - rel) * k ≠ 0 := mul_ne_zero (sub_ne_zero.2 (Ne.symm hne)) hk
  rcases lt_or_gt_of_ne this with hlt | hlt
  · exact absurd (h.past hlt) h1.ne'
  · exact absurd (h.short hlt) h2.ne

/-- One joint is as good as another with the same settings: the joint between the bodies is unique. -/
theorem joined_unique {w : World K} {ia ib : Nat} {j j' : Joint K} (h : JoinedBy w ia ib j) (h' : JoinedBy w ia ib j') : j = j' := by
  have := h.joint.symm.trans h'.joint
  simpa using this

/-- What has been reached after a step: the joint, with its settings, and the speed. -/
structure GearRuns (M : Mth K) (dt : K) (ia ib : Nat) (g : GearJoint K) (k : K) (w : World K) : Prop where
  joint : ∃ g', JoinedBy w ia ib (.gear g') ∧ (g'.toJointCfg = g.toJointCfg ∧ g'.phase = g.phase ∧ g'.ratio = g.ratio ∧ g'.ratioInv = g.ratioInv)
  mass : (w.bodies ia).iInv * g.ratioInv + g.ratio * (w.bodies ib).iInv = k

theorem gear_runs {M : Mth K} {sc : Scene K} (hn : sc.par.iterations ≠ 0) {dt : K} (h0 : 0 < dt) {ia ib : Nat} {g : GearJoint K} {k : K} (hk : k ≠ 0) (hF : 0 ≤ g.maxForce) (hB : 0 ≤ g.maxBias)
    {w : World K} (hw : GearRuns M dt ia ib g k w) {t : Tick K} (h : Plain sc dt ia ib w t (w.step M sc t))
    (hi : ∀ g', JoinedBy (w.step M sc t) ia ib (.gear g') → |g'.jAcc| < g'.maxForce * dt) :
    GearRuns M dt ia ib g k (w.step M sc t) ∧ astray g.ratio g.phase ia ib (w.step M sc t) = astray g.ratio g.phase ia ib w + turning g.ratio ia ib w * dt ∧
      turning g.ratio ia ib (w.step M sc t) * dt = -upTo (g.maxBias * dt) ((1 - M.pow g.errorBias dt) * astray g.ratio g.phase ia ib (w.step M sc t)) := by
  obtain ⟨⟨g1, j1, c1, c2, c3, c4⟩, hm⟩ := hw
  obtain rfl := h.length
  have f1 : g1.maxForce = g.maxForce := congrArg JointCfg.maxForce c1
  have f2 : g1.maxBias = g.maxBias := congrArg JointCfg.maxBias c1
  have f3 : g1.errorBias = g.errorBias := congrArg JointCfg.errorBias c1
  obtain ⟨on, g2, j2, ⟨d1, d2, d3, d4⟩, dr⟩ := C126_gear_step hn h0 j1 h (by rw [c3, c4, hm]; exact hk) (by rw [f1]; exact hF) (by rw [f2]; exact hB)
  have f4 : g2.maxForce = g1.maxForce := congrArg JointCfg.maxForce d1
  have hlt := hi g2 j2
  rw [f4] at hlt
  have hr := drives_reached dr (by rw [c3, c4, hm]; exact hk) hlt
  rw [c2, c3, f2, f3] at hr
  refine ⟨⟨⟨g2, j2, d1.trans c1, d2.trans c2, d3.trans c3, d4.trans c4⟩, ?_⟩, ?_, ?_⟩
  · rw [on.mass.1, on.mass.2, hm]
  · unfold astray turning
    rw [on.angle.1, on.angle.2]
    ring
  · rw [hr, neg_mul, ← upTo_mul h0.le, div_mul_cancel₀ _ h0.ne']

/-- **C126.** Two bodies with a gear between them: as long as the gear is strong enough, each step takes exactly the part `1 - errorBias ^ dt` of its error away, but not more than `maxBias * dt`,
whatever forces turn the bodies. -/
theorem C126_gear {M : Mth K} {sc : Scene K} (hn : sc.par.iterations ≠ 0) {dt : K} (h0 : 0 < dt) {ia ib : Nat} {g : GearJoint K} {w : World K} (hj : JoinedBy w ia ib (.gear g))
    (hk : (w.bodies ia).iInv * g.ratioInv + g.ratio * (w.bodies ib).iInv ≠ 0) (hF : 0 ≤ g.maxForce) (hB : 0 ≤ g.maxBias) (t₀ : Tick K) (ticks : List (Tick K))
    (h : EveryStep M sc (fun w t w' => Plain sc dt ia ib w t w' ∧ ∀ g', JoinedBy w' ia ib (.gear g') → |g'.jAcc| < g'.maxForce * dt) w (t₀ :: ticks)) :
    ∃ w', w.run M sc ((t₀ :: ticks).map .step) = some w' ∧
      astray g.ratio g.phase ia ib w' = (nearer (M.pow g.errorBias dt) (g.maxBias * dt))^[ticks.length] (astray g.ratio g.phase ia ib (w.step M sc t₀)) ∧
      turning g.ratio ia ib w' * dt = nearer (M.pow g.errorBias dt) (g.maxBias * dt) (astray g.ratio g.phase ia ib w') - astray g.ratio g.phase ia ib w' := by
  obtain ⟨⟨p0, i0⟩, hrest⟩ := h
  obtain ⟨r0, -, s0⟩ := gear_runs (k := (w.bodies ia).iInv * g.ratioInv + g.ratio * (w.bodies ib).iInv) (g := g) hn h0 hk hF hB ⟨⟨g, hj, rfl, rfl, rfl, rfl⟩, rfl⟩ p0 i0
  rw [List.map_cons]
  show ∃ w', (w.step M sc t₀).run M sc (ticks.map .step) = some w' ∧ _
  generalize (w.bodies ia).iInv * g.ratioInv + g.ratio * (w.bodies ib).iInv = k at *
  generalize w.step M sc t₀ = w1 at *
  clear p0 i0 hj w
  induction ticks generalizing w1 with
  | nil =>
    refine ⟨w1, rfl, rfl, ?_⟩
    rw [s0]; unfold nearer; ring
  | cons t ts ih =>
    obtain ⟨⟨p1, i1⟩, hr⟩ := hrest
    obtain ⟨r1, e1, s1⟩ := gear_runs hn h0 hk hF hB r0 p1 i1
    obtain ⟨w', q1, q2, q3⟩ := ih _ hr s1 r1
    refine ⟨w', q1, ?_, q3⟩
    rw [q2, List.length_cons, Function.iterate_succ_apply, e1, s0, ← sub_eq_add_neg]
    rfl

/-- **C126.** If the wanted speed is within the bounds at first, it always is, and the error is the power of its first value. -/
theorem C126_geometric {p D e : K} (hp : 0 ≤ p) (hp1 : p ≤ 1) (he : |(1 - p) * e| ≤ D) (n : Nat) : (nearer p D)^[n] e = p ^ n * e := by
  have hup : ∀ x, |x| ≤ D → upTo D x = x := by
    intro x hx
    obtain ⟨h1, h2⟩ := abs_le.1 hx
    unfold upTo
    rw [min_eq_left h2, max_eq_right h1]
  induction n generalizing e with
  | zero => simp
  | succ n ih =>
    have e1 : nearer p D e = p * e := by unfold nearer; rw [hup _ he]; ring
    rw [Function.iterate_succ_apply, e1, ih]
    · ring
    · refine le_trans ?_ he
      rw [abs_mul, abs_mul, abs_mul, abs_of_nonneg hp]
      have := mul_le_mul_of_nonneg_right hp1 (abs_nonneg e)
      rw [one_mul] at this
      exact mul_le_mul_of_nonneg_left this (abs_nonneg _)

/-- What has been reached after a step with a motor. -/
structure MotorRuns (ia ib : Nat) (g : SimpleMotor K) (k : K) (w : World K) : Prop where
  joint : ∃ g', JoinedBy w ia ib (.motor g') ∧ (g'.toJointCfg = g.toJointCfg ∧ g'.rate = g.rate)
  mass : (w.bodies ia).iInv + (w.bodies ib).iInv = k

theorem motor_runs {M : Mth K} {sc : Scene K} (hn : sc.par.iterations ≠ 0) {dt : K} (h0 : 0 < dt) {ia ib : Nat} {g : SimpleMotor K} {k : K} (hk : k ≠ 0) (hF : 0 ≤ g.maxForce)
    {w : World K} (hw : MotorRuns ia ib g k w) {t : Tick K} (h : Plain sc dt ia ib w t (w.step M sc t))
    (hi : ∀ g', JoinedBy (w.step M sc t) ia ib (.motor g') → |g'.jAcc| < g'.maxForce * dt) :
    MotorRuns ia ib g k (w.step M sc t) ∧ between ia ib (w.step M sc t) = between ia ib w + turning 1 ia ib w * dt ∧ turning 1 ia ib (w.step M sc t) = -g.rate := by
  obtain ⟨⟨g1, j1, c1, c2⟩, hm⟩ := hw
  obtain rfl := h.length
  have f1 : g1.maxForce = g.maxForce := congrArg JointCfg.maxForce c1
  obtain ⟨on, g2, j2, ⟨d1, d2⟩, dr⟩ := C126_motor_step hn h0 j1 h (by rw [hm]; exact hk) (by rw [f1]; exact hF)
  have f4 : g2.maxForce = g1.maxForce := congrArg JointCfg.maxForce d1
  have hlt := hi g2 j2
  rw [f4] at hlt
  have hr := drives_reached dr (by rw [hm]; exact hk) hlt
  rw [c2] at hr
  refine ⟨⟨⟨g2, j2, d1.trans c1, d2.trans c2⟩, ?_⟩, ?_, hr⟩
  · rw [on.mass.1, on.mass.2, hm]
  · unfold between turning
    rw [on.angle.1, on.angle.2]
    ring

/-- **C126.** Two bodies with a motor between them: as long as the motor is strong enough, they turn against each other exactly with its rate, whatever forces turn the bodies. -/
theorem C126_motor {M : Mth K} {sc : Scene K} (hn : sc.par.iterations ≠ 0) {dt : K} (h0 : 0 < dt) {ia ib : Nat} {g : SimpleMotor K} {w : World K} (hj : JoinedBy w ia ib (.motor g))
    (hk : (w.bodies ia).iInv + (w.bodies ib).iInv ≠ 0) (hF : 0 ≤ g.maxForce) (t₀ : Tick K) (ticks : List (Tick K))
    (h : EveryStep M sc (fun w t w' => Plain sc dt ia ib w t w' ∧ ∀ g', JoinedBy w' ia ib (.motor g') → |g'.jAcc| < g'.maxForce * dt) w (t₀ :: ticks)) :
    ∃ w', w.run M sc ((t₀ :: ticks).map .step) = some w' ∧
      between ia ib w' = between ia ib (w.step M sc t₀) - ticks.length * (g.rate * dt) ∧ (w'.bodies ib).w - (w'.bodies ia).w = -g.rate := by
  obtain ⟨⟨p0, i0⟩, hrest⟩ := h
  obtain ⟨r0, -, s0⟩ := motor_runs (k := (w.bodies ia).iInv + (w.bodies ib).iInv) (g := g) hn h0 hk hF ⟨⟨g, hj, rfl, rfl⟩, rfl⟩ p0 i0
  rw [List.map_cons]
  show ∃ w', (w.step M sc t₀).run M sc (ticks.map .step) = some w' ∧ _
  generalize (w.bodies ia).iInv + (w.bodies ib).iInv = k at *
  generalize w.step M sc t₀ = w1 at *
  clear p0 i0 hj w
  induction ticks generalizing w1 with
  | nil =>
    refine ⟨w1, rfl, by simp, ?_⟩
    rw [← s0]; unfold turning; ring
  | cons t ts ih =>
    obtain ⟨⟨p1, i1⟩, hr⟩ := hrest
    obtain ⟨r1, e1, s1⟩ := motor_runs hn h0 hk hF r0 p1 i1
    obtain ⟨w', q1, q2, q3⟩ := ih _ hr s1 r1
    refine ⟨w', q1, ?_, q3⟩
    rw [q2, List.length_cons, e1, s0]
    push_cast
    ring

/-- What has been reached after a step with a limit. -/
structure LimitRuns (ia ib : Nat) (g : RotaryLimitJoint K) (k : K) (w : World K) : Prop where
  joint : ∃ g', JoinedBy w ia ib (.rotaryLimit g') ∧ (g'.toJointCfg = g.toJointCfg ∧ g'.min = g.min ∧ g'.max = g.max)
  mass : (w.bodies ia).iInv + (w.bodies ib).iInv = k

namespace Spec
/-- How far the bodies are beyond the upper limit (`up`) or the lower one. -/
def beyond (up : Bool) (lo hi : K) (ia ib : Nat) (w : World K) : K := if up then between ia ib w - hi else lo - between ia ib w
end Spec

theorem limit_runs {M : Mth K} {sc : Scene K} (hn : sc.par.iterations ≠ 0) {dt : K} (h0 : 0 < dt) {ia ib : Nat} {g : RotaryLimitJoint K} {k : K} (hk : 0 < k) (hF : 0 ≤ g.maxForce) (hB : 0 < g.maxBias)
    (hp : M.pow g.errorBias dt < 1) (hm : g.min ≤ g.max) (up : Bool)
    {w : World K} (hw : LimitRuns ia ib g k w) {t : Tick K} (h : Plain sc dt ia ib w t (w.step M sc t)) (hbe : 0 < beyond up g.min g.max ia ib (w.step M sc t))
    (hi : ∀ g', JoinedBy (w.step M sc t) ia ib (.rotaryLimit g') → |g'.jAcc| < g'.maxForce * dt) :
    LimitRuns ia ib g k (w.step M sc t) ∧ beyond up g.min g.max ia ib (w.step M sc t) = beyond up g.min g.max ia ib w + (if up then 1 else -1) * turning 1 ia ib w * dt ∧
      (if up then 1 else -1) * turning 1 ia ib (w.step M sc t) * dt ≤ -upTo (g.maxBias * dt) ((1 - M.pow g.errorBias dt) * beyond up g.min g.max ia ib (w.step M sc t)) := by
  obtain ⟨⟨g1, j1, c1, c2, c3⟩, hmass⟩ := hw
  obtain rfl := h.length
  have f1 : g1.maxForce = g.maxForce := congrArg JointCfg.maxForce c1
  have f2 : g1.maxBias = g.maxBias := congrArg JointCfg.maxBias c1
  have f3 : g1.errorBias = g.errorBias := congrArg JointCfg.errorBias c1
  obtain ⟨on, g2, j2, ⟨d1, d2, d3⟩, -, dhi, dlo⟩ := C126_limit_step hn h0 j1 h (by rw [hmass]; exact hk.ne') (by rw [f1]; exact hF) (by rw [f2]; exact hB) (by rw [f3]; exact hp) (by rw [c2, c3]; exact hm)
  rw [c3, f1, f2, f3, hmass] at dhi
  rw [c2, f1, f2, f3, hmass] at dlo
  have f4 : g2.maxForce = g.maxForce := (congrArg JointCfg.maxForce d1).trans f1
  have hlt := hi g2 j2
  rw [f4] at hlt
  obtain ⟨l1, l2⟩ := abs_lt.1 hlt
  refine ⟨⟨⟨g2, j2, d1.trans c1, d2.trans c2, d3.trans c3⟩, ?_⟩, ?_, ?_⟩
  · rw [on.mass.1, on.mass.2, hmass]
  · unfold beyond between turning
    rw [on.angle.1, on.angle.2]
    cases up <;> simp <;> ring
  · rw [show ∀ x, (1 - M.pow g.errorBias t.dt) * x = (1 - M.pow g.errorBias t.dt) * x / t.dt * t.dt from fun x => (div_mul_cancel₀ _ h0.ne').symm, upTo_mul h0.le, ← neg_mul]
    refine mul_le_mul_of_nonneg_right ?_ h0.le
    cases up with
    | true =>
      have hd := dhi (by unfold beyond at hbe; simp only [if_true] at hbe; linarith)
      simp only [beyond, if_true, one_mul]
      by_contra hc
      have := hd.past (mul_neg_of_neg_of_pos (by linarith [not_le.1 hc]) hk)
      linarith
    | false =>
      have hd := dlo (by unfold beyond at hbe; simp only [Bool.false_eq_true, if_false] at hbe; linarith)
      simp only [beyond, Bool.false_eq_true, if_false, neg_one_mul]
      by_contra hc
      have := hd.short (mul_pos (by linarith [not_le.1 hc]) hk)
      linarith

theorem nearer_mono {p D x y : K} (hp : 0 ≤ p) (hp1 : p ≤ 1) (hD : 0 ≤ D) (h : x ≤ y) : nearer p D x ≤ nearer p D y := by
  have hq : (1 - p) * x ≤ (1 - p) * y := mul_le_mul_of_nonneg_left h (by linarith)
  have hq' : p * x ≤ p * y := mul_le_mul_of_nonneg_left h hp
  have key : ∀ u v : K, u ≤ v → upTo D v - upTo D u ≤ v - u := by
    intro u v huv
    unfold upTo
    rcases le_total u D with h1 | h1 <;> rcases le_total v D with h2 | h2 <;> simp only [min_eq_left, min_eq_right, h1, h2]
    · rcases le_total (-D) u with h3 | h3 <;> rcases le_total (-D) v with h4 | h4 <;> simp only [max_eq_left, max_eq_right, h3, h4] <;> linarith
    · rw [max_eq_right (by linarith : -D ≤ D)]
      rcases le_total (-D) u with h3 | h3 <;> simp only [max_eq_left, max_eq_right, h3] <;> linarith
    · rw [le_antisymm h2 (h1.trans huv), le_antisymm (huv.trans h2) h1]; simp
    · rw [sub_self]; linarith
  have := key _ _ hq
  unfold nearer
  linarith

/-- **C126.** Two bodies that are beyond the limit of a rotary limit joint come back at least as fast as the joint wants them to, as long as it is strong enough and until they are back. -/
theorem C126_limit {M : Mth K} {sc : Scene K} (hn : sc.par.iterations ≠ 0) {dt : K} (h0 : 0 < dt) {ia ib : Nat} {g : RotaryLimitJoint K} {w : World K} (hj : JoinedBy w ia ib (.rotaryLimit g))
    (hk : 0 < (w.bodies ia).iInv + (w.bodies ib).iInv) (hF : 0 ≤ g.maxForce) (hB : 0 < g.maxBias) (hp0 : 0 ≤ M.pow g.errorBias dt) (hp : M.pow g.errorBias dt < 1) (hm : g.min ≤ g.max) (up : Bool)
    (t₀ : Tick K) (ticks : List (Tick K))
    (h : EveryStep M sc (fun w t w' => Plain sc dt ia ib w t w' ∧ 0 < beyond up g.min g.max ia ib w' ∧ ∀ g', JoinedBy w' ia ib (.rotaryLimit g') → |g'.jAcc| < g'.maxForce * dt) w (t₀ :: ticks)) :
    ∃ w', w.run M sc ((t₀ :: ticks).map .step) = some w' ∧
      beyond up g.min g.max ia ib w' ≤ (nearer (M.pow g.errorBias dt) (g.maxBias * dt))^[ticks.length] (beyond up g.min g.max ia ib (w.step M sc t₀)) := by
  obtain ⟨⟨p0, b0, i0⟩, hrest⟩ := h
  obtain ⟨r0, -, s0⟩ := limit_runs (k := (w.bodies ia).iInv + (w.bodies ib).iInv) (g := g) hn h0 hk hF hB hp hm up ⟨⟨g, hj, rfl, rfl, rfl⟩, rfl⟩ p0 b0 i0
  rw [List.map_cons]
  show ∃ w', (w.step M sc t₀).run M sc (ticks.map .step) = some w' ∧ _
  generalize (w.bodies ia).iInv + (w.bodies ib).iInv = k at *
  generalize w.step M sc t₀ = w1 at *
  clear p0 i0 hj w
  have mono : ∀ (n : Nat) {x y : K}, x ≤ y → (nearer (M.pow g.errorBias dt) (g.maxBias * dt))^[n] x ≤ (nearer (M.pow g.errorBias dt) (g.maxBias * dt))^[n] y := by
    intro n
    induction n with
    | zero => intro x y h; exact h
    | succ n ih => intro x y h; rw [Function.iterate_succ_apply, Function.iterate_succ_apply]; exact ih (nearer_mono hp0 hp.le (mul_nonneg hB.le h0.le) h)
  induction ticks generalizing w1 with
  | nil => exact ⟨w1, rfl, le_rfl⟩
  | cons t ts ih =>
    obtain ⟨⟨p1, b1, i1⟩, hr⟩ := hrest
    obtain ⟨r1, e1, s1⟩ := limit_runs hn h0 hk hF hB hp hm up r0 p1 b1 i1
    obtain ⟨w', q1, q2⟩ := ih _ hr b1 s1 r1
    refine ⟨w', q1, q2.trans ?_⟩
    rw [List.length_cons, Function.iterate_succ_apply]
    refine mono _ ?_
    rw [e1]
    unfold nearer
    linarith

/-! ## Examples: two bodies, both turning, one pushed by a torque, with damping; the first step and a second one -/

def exSpinner (k : Nat) : Body ℚ :=
  if k = 0 then { Body.blank with m := 1, mInv := 1, i := 1, iInv := 1, w := 3, torque := 2 } else { Body.blank with m := 1, mInv := 1, i := 2, iInv := 1/2, w := -1, angle := 2 }
def exCoupled (jt : Joint ℚ) : World ℚ := { World.init exSpinner (fun _ => ⟨.circle ⟨⟨0, 0⟩, ⟨0, 0⟩, 1⟩, ⟨0, 0, 0, 0⟩, 0, ⟨1, 0⟩⟩) with joints := [⟨0, 1, jt⟩] }
def exSpinTick : Tick ℚ := ⟨1/4, [0, 1], [], fun _ _ => true, fun _ _ => true⟩

/-- What the joint has done. -/
def exImpulse (ls : List (Link (Joint ℚ))) : ℚ :=
  match ls with
  | [⟨_, _, .gear g⟩] => g.jAcc
  | [⟨_, _, .motor g⟩] => g.jAcc
  | [⟨_, _, .rotaryLimit g⟩] => g.jAcc
  | _ => 0
def exForce (ls : List (Link (Joint ℚ))) : ℚ :=
  match ls with
  | [⟨_, _, .gear g⟩] => g.maxForce
  | [⟨_, _, .motor g⟩] => g.maxForce
  | [⟨_, _, .rotaryLimit g⟩] => g.maxForce
  | _ => 0

theorem exPlain {sc : Scene ℚ} {w w' : World ℚ} (h1 : (w.joints.all fun l => (l.ia == 0 || l.ia == 1) && (l.ib == 0 || l.ib == 1)) = true) (h2 : w'.active = [])
    (h3 : (w.bodies 0).wBias = 0 ∧ (w.bodies 1).wBias = 0) : Plain sc (1/4) 0 1 w exSpinTick w' := by
  refine ⟨rfl, ⟨.inl (by decide), .inl (by decide)⟩, ⟨fun l hl hn => ?_, fun p hp => ?_⟩, h3⟩
  · have := List.all_eq_true.1 h1 l hl
    simp only [Bool.and_eq_true, Bool.or_eq_true, beq_iff_eq] at this
    exact absurd this hn
  · rw [h2] at hp
    exact absurd hp List.not_mem_nil

def exDrivenMotor : SimpleMotor ℚ := ⟨⟨100, 1/2, 100⟩, 4, 0, 0⟩
example : JoinedBy (exCoupled (.motor exDrivenMotor)) 0 1 (.motor exDrivenMotor) ∧
    EveryStep toyMth exBalls3 (fun w t w' => Plain exBalls3 (1/4) 0 1 w t w' ∧ ∀ g', JoinedBy w' 0 1 (.motor g') → |g'.jAcc| < g'.maxForce * (1/4)) (exCoupled (.motor exDrivenMotor)) [exSpinTick, exSpinTick] ∧
    (let w1 := (exCoupled (.motor exDrivenMotor)).step toyMth exBalls3 exSpinTick
     turning 1 0 1 w1 = -4 ∧ between 0 1 w1 = 1 ∧ between 0 1 (w1.step toyMth exBalls3 exSpinTick) = 0 ∧ exImpulse (w1.joints.filter fun l => (l.ia == 0 || l.ia == 1) && (l.ib == 0 || l.ib == 1)) ≠ 0) := by
  refine ⟨⟨by decide, rfl⟩, ⟨⟨exPlain (by decide +kernel) (by decide +kernel) (by decide +kernel), fun g' h => ?_⟩, ⟨exPlain (by decide +kernel) (by decide +kernel) (by decide +kernel), fun g' h => ?_⟩, trivial⟩, by decide +kernel⟩ <;>
  · have e : g'.jAcc = _ := congrArg exImpulse h.joint.symm
    have f : g'.maxForce = _ := congrArg exForce h.joint.symm
    rw [e, f]
    decide +kernel

def exDrivenGear : GearJoint ℚ := ⟨⟨1000, 1/2, 100⟩, 1, 2, 1/2, 0, 0, 0⟩
example : JoinedBy (exCoupled (.gear exDrivenGear)) 0 1 (.gear exDrivenGear) ∧
    EveryStep toyMth exBalls3 (fun w t w' => Plain exBalls3 (1/4) 0 1 w t w' ∧ ∀ g', JoinedBy w' 0 1 (.gear g') → |g'.jAcc| < g'.maxForce * (1/4)) (exCoupled (.gear exDrivenGear)) [exSpinTick, exSpinTick] ∧
    (let w1 := (exCoupled (.gear exDrivenGear)).step toyMth exBalls3 exSpinTick
     astray 2 1 0 1 w1 = 7/4 ∧ astray 2 1 0 1 (w1.step toyMth exBalls3 exSpinTick) = 7/8 ∧ |(1 - toyMth.pow exDrivenGear.errorBias (1/4)) * (7/4)| ≤ exDrivenGear.maxBias * (1/4)) := by
  refine ⟨⟨by decide, rfl⟩, ⟨⟨exPlain (by decide +kernel) (by decide +kernel) (by decide +kernel), fun g' h => ?_⟩, ⟨exPlain (by decide +kernel) (by decide +kernel) (by decide +kernel), fun g' h => ?_⟩, trivial⟩, by decide +kernel⟩ <;>
  · have e : g'.jAcc = _ := congrArg exImpulse h.joint.symm
    have f : g'.maxForce = _ := congrArg exForce h.joint.symm
    rw [e, f]
    decide +kernel

def exDrivenLimit : RotaryLimitJoint ℚ := ⟨⟨1000, 1/2, 100⟩, -1, 1/4, 0, 0, 0⟩
example : JoinedBy (exCoupled (.rotaryLimit exDrivenLimit)) 0 1 (.rotaryLimit exDrivenLimit) ∧
    EveryStep toyMth exBalls3 (fun w t w' => Plain exBalls3 (1/4) 0 1 w t w' ∧ 0 < beyond true exDrivenLimit.min exDrivenLimit.max 0 1 w' ∧
      ∀ g', JoinedBy w' 0 1 (.rotaryLimit g') → |g'.jAcc| < g'.maxForce * (1/4)) (exCoupled (.rotaryLimit exDrivenLimit)) [exSpinTick, exSpinTick] ∧
    (let w1 := (exCoupled (.rotaryLimit exDrivenLimit)).step toyMth exBalls3 exSpinTick
     beyond true exDrivenLimit.min exDrivenLimit.max 0 1 w1 = 3/4 ∧ 0 < beyond true exDrivenLimit.min exDrivenLimit.max 0 1 (w1.step toyMth exBalls3 exSpinTick) ∧
      beyond true exDrivenLimit.min exDrivenLimit.max 0 1 (w1.step toyMth exBalls3 exSpinTick) ≤ 3/8) := by
  refine ⟨⟨by decide, rfl⟩, ⟨⟨exPlain (by decide +kernel) (by decide +kernel) (by decide +kernel), by decide +kernel, fun g' h => ?_⟩,
    ⟨exPlain (by decide +kernel) (by decide +kernel) (by decide +kernel), by decide +kernel, fun g' h => ?_⟩, trivial⟩, by decide +kernel⟩ <;>
  · have e : g'.jAcc = _ := congrArg exImpulse h.joint.symm
    have f : g'.maxForce = _ := congrArg exForce h.joint.symm
    rw [e, f]
    decide +kernel

end Cm
