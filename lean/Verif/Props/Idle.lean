import Verif.Model.Idle
import Verif.Props.Space
import Verif.Props.Force
/-! # C131: how slow and for how long before sleep -/
set_option linter.unusedSectionVars false
set_option linter.unusedSimpArgs false
set_option linter.unusedVariables false

namespace Cm
open Spec

section Speed
variable {K : Type} [Field K] [LinearOrder K] [IsStrictOrderedRing K]

namespace Spec
/-- The speed up to which a body is idle: the threshold of the space, or else what gravity adds to the speed in a step. -/
def IdleSpeed (idleSpeed : K) (g : V2 K) (dt d : K) : Prop := 0 ≤ d ∧ (idleSpeed ≠ 0 → d = |idleSpeed|) ∧ (idleSpeed = 0 → d ^ 2 = (g.x ^ 2 + g.y ^ 2) * dt ^ 2)
end Spec

/-- **C131.** A body is idle exactly if its mean speed, that of a point at its radius of gyration `k` added in squares to that of its centre, is no more than the idle speed. -/
theorem C131_slow (idleSpeed : K) (g : V2 K) (dt d k : K) (hd : IdleSpeed idleSpeed g dt d) (b : Body K) (hm : 0 < b.m) (hi : b.i = b.m * k ^ 2) :
    b.tooFast (idleSpeedSq idleSpeed g dt) = false ↔ b.v.x ^ 2 + b.v.y ^ 2 + (k * b.w) ^ 2 ≤ d ^ 2 := by
  have e : idleSpeedSq idleSpeed g dt = d ^ 2 := by
    unfold idleSpeedSq
    split
    · rename_i h
      rw [hd.2.1 h, sq_abs]; ring
    · rename_i h
      rw [hd.2.2 (not_not.1 h), V2.dot]; ring
  have e2 : (if d ^ 2 ≠ 0 then b.m * d ^ 2 else 0) = b.m * d ^ 2 := by
    split
    · rfl
    · rename_i h
      rw [not_not.1 h, mul_zero]
  unfold Body.tooFast
  rw [e]
  dsimp only
  rw [e2, kineticEnergy_eq, trueEnergy, hi]
  rw [decide_eq_false_iff_not, gt_iff_lt, not_lt]
  have : 2 * (b.m * (b.v.x ^ 2 + b.v.y ^ 2) / 2 + b.m * k ^ 2 * b.w ^ 2 / 2) = b.m * (b.v.x ^ 2 + b.v.y ^ 2 + (k * b.w) ^ 2) := by ring
  rw [this]
  exact mul_le_mul_iff_right₀ hm

/-- **C131.** A body at rest is idle; a body faster than the idle speed is not; without threshold and gravity only a body at rest is idle. -/
theorem C131_rest_is_slow (idleSpeed : K) (g : V2 K) (dt d k : K) (hd : IdleSpeed idleSpeed g dt d) (b : Body K) (hm : 0 < b.m) (hi : b.i = b.m * k ^ 2) :
    ((b.v = V2.zero ∧ b.w = 0) → b.tooFast (idleSpeedSq idleSpeed g dt) = false) ∧
    (d ^ 2 < b.v.x ^ 2 + b.v.y ^ 2 → b.tooFast (idleSpeedSq idleSpeed g dt) = true) ∧
    (idleSpeed = 0 → g = V2.zero → k ≠ 0 → (b.tooFast (idleSpeedSq idleSpeed g dt) = false ↔ b.v = V2.zero ∧ b.w = 0)) := by
  have h := C131_slow idleSpeed g dt d k hd b hm hi
  have h1 : (b.v = V2.zero ∧ b.w = 0) → b.tooFast (idleSpeedSq idleSpeed g dt) = false := by
    rintro ⟨e1, e2⟩
    rw [h, e1, e2]
    simp only [V2.zero]
    have := sq_nonneg d
    linarith [mul_zero k, (by ring : (0 : K) ^ 2 + 0 ^ 2 + (k * 0) ^ 2 = 0)]
  refine ⟨h1, fun hv => ?_, fun h0 hg hk => ⟨fun hs => ?_, h1⟩⟩
  · by_contra hc
    rw [Bool.not_eq_true, h] at hc
    have := sq_nonneg (k * b.w)
    linarith
  · rw [h] at hs
    have e0 : d ^ 2 = 0 := by rw [hd.2.2 h0, hg]; simp only [V2.zero]; ring
    have x1 := sq_nonneg b.v.x
    have x2 := sq_nonneg b.v.y
    have x3 := sq_nonneg (k * b.w)
    have y1 : b.v.x = 0 := pow_eq_zero_iff (two_ne_zero) |>.1 (by linarith : b.v.x ^ 2 = 0)
    have y2 : b.v.y = 0 := pow_eq_zero_iff (two_ne_zero) |>.1 (by linarith : b.v.y ^ 2 = 0)
    have y3 : k * b.w = 0 := pow_eq_zero_iff (two_ne_zero) |>.1 (by linarith : (k * b.w) ^ 2 = 0)
    exact ⟨V2.ext y1 y2, (mul_eq_zero.1 y3).resolve_left hk⟩

/-- A ball of mass 2 and radius of gyration 1/2, with gravity 10 and steps of 1/10: idle up to speed 1. -/
example : IdleSpeed (0 : ℚ) ⟨0, -10⟩ (1/10) 1 ∧
    ({ Body.blank with m := 2, i := 1/2, v := ⟨0, -1⟩ } : Body ℚ).tooFast (idleSpeedSq 0 ⟨0, -10⟩ (1/10)) = false ∧
    ({ Body.blank with m := 2, i := 1/2, v := ⟨0, -1⟩, w := 1 } : Body ℚ).tooFast (idleSpeedSq 0 ⟨0, -10⟩ (1/10)) = true ∧ (1/2 : ℚ) = 2 * (1/2) ^ 2 := by
  refine ⟨⟨by norm_num, fun h => absurd rfl h, fun _ => by norm_num⟩, by decide +kernel, by decide +kernel, by norm_num⟩
end Speed

section Time
open Sp
variable {K : Type} [Zero K] [LT K] [DecidableRel (α := K) (· < ·)] [Add K] [DecidableEq K]

/-- Idle times are kept or set to nought, and the sleep threshold is kept. -/
def Idled (s s' : St K) : Prop := (∀ c, (s'.bd c).idle = 0 ∨ (s'.bd c).idle = (s.bd c).idle) ∧ s'.threshold = s.threshold

theorem Idled.refl (s : St K) : Idled s s := ⟨fun _ => Or.inr rfl, rfl⟩
theorem Idled.of_eq {s s' : St K} (h : s'.bd = s.bd) (ht : s'.threshold = s.threshold) : Idled s s' := ⟨fun c => Or.inr (by rw [h]), ht⟩
theorem Idled.trans {s s1 s2 : St K} (a : Idled s s1) (b : Idled s1 s2) : Idled s s2 := ⟨fun c => by
  rcases b.1 c with h | h
  · exact Or.inl h
  · rw [h]; exact a.1 c, b.2.trans a.2⟩

theorem Idled.setB (s : St K) (b : Nat) (f : Bd K → Bd K) (h : ∀ d, (f d).idle = d.idle ∨ (f d).idle = 0) : Idled s (s.setB b f) := by
  refine ⟨fun c => ?_, rfl⟩
  simp only [St.setB]
  split
  · rename_i e
    rw [e]
    exact (h _).symm
  · exact Or.inr rfl

theorem wakeShapes_idled : ∀ (l : List Nat) (s s' : St K), wakeShapes s l = some s' → Idled s s'
  | [], s, s', h => by rw [wakeShapes, Option.some.injEq] at h; rw [h]; exact Idled.refl _
  | x :: l, s, s', h => by
    rw [wakeShapes] at h
    split at h
    · cases h
    · have k := wakeShapes_idled l _ s' h
      exact ⟨k.1, k.2⟩

theorem wakeArbs_idled (b : Nat) : ∀ (l : List Nat) (s : St K), Idled s (wakeArbs s b l)
  | [], s => Idled.refl s
  | r :: l, s => by
    rw [wakeArbs]
    refine Idled.trans ?_ (wakeArbs_idled b l _)
    split
    · unfold restoreArb; simp only [St.setA]; split <;> exact Idled.of_eq rfl rfl
    · exact Idled.refl s

theorem wakeCons_idled (b : Nat) : ∀ (l : List Nat) (s : St K), Idled s (wakeCons s b l)
  | [], s => Idled.refl s
  | r :: l, s => by
    rw [wakeCons]
    refine Idled.trans ?_ (wakeCons_idled b l _)
    split <;> exact Idled.of_eq rfl rfl

theorem spaceActivate_idled {s s' : St K} {b : Nat} (h : spaceActivate s b = some s') : Idled s s' := by
  unfold spaceActivate at h
  split at h
  · rw [Option.some.injEq] at h; rw [← h]; split <;> exact Idled.of_eq rfl rfl
  · unfold wakeBody at h
    split at h
    · cases h
    · rename_i s1 e1
      rw [Option.some.injEq] at h
      rw [← h]
      have k0 := wakeShapes_idled _ _ _ e1
      have k : Idled s s1 := ⟨k0.1, k0.2⟩
      exact (k.trans (wakeArbs_idled b _ _)).trans (wakeCons_idled b _ _)

theorem activateLoop_idled : ∀ (n : Nat) (s s' : St K) (o : Option Nat), activateLoop n s o = some s' → Idled s s'
  | 0, s, s', o, h => by rw [activateLoop] at h; cases h
  | n + 1, s, s', none, h => by rw [activateLoop, Option.some.injEq] at h; rw [h]; exact Idled.refl _
  | n + 1, s, s', some b, h => by
    rw [activateLoop] at h
    split at h
    · cases h
    · rename_i s1 e1
      refine (Idled.trans ?_ (spaceActivate_idled e1)).trans (activateLoop_idled n _ s' _ h)
      exact Idled.setB s b _ (fun d => Or.inr rfl)

theorem touchIdle_idled (b : Nat) : ∀ (l : List Nat) (s : St K), Idled s (touchIdle s b l)
  | [], s => Idled.refl s
  | r :: l, s => by
    rw [touchIdle]
    refine Idled.trans ?_ (touchIdle_idled b l _)
    generalize (if (s.ar r).a = b then (s.ar r).b else (s.ar r).a) = o
    split
    · exact Idled.setB s o (fun d => { d with idle := 0 }) (fun d => Or.inr rfl)
    · exact Idled.refl s

theorem activate_idled {s s' : St K} {b : Nat} (h : activate s b = some s') : Idled s s' := by
  unfold activate at h
  split at h
  · rw [Option.some.injEq] at h; rw [h]; exact Idled.refl _
  · simp only at h
    have k0 : Idled s (s.setB b fun d => { d with idle := 0 }) := Idled.setB s b _ (fun d => Or.inr rfl)
    split at h
    · cases h
    · rename_i s3 e3
      rw [Option.some.injEq] at h
      have k3 : Idled s s3 := by
        split at e3
        · rw [Option.some.injEq] at e3; rw [← e3]; exact k0
        · split at e3
          · split at e3
            · cases e3
            · rename_i s2 e2
              rw [Option.some.injEq] at e3
              have k := k0.trans (activateLoop_idled _ _ _ _ e2)
              rw [← e3]
              exact ⟨k.1, k.2⟩
          · rw [Option.some.injEq] at e3; rw [← e3]; exact k0
      rw [← h]
      exact k3.trans (touchIdle_idled b _ _)

theorem activateStatic_idled (b x : Nat) : ∀ (l : List Nat) (s s' : St K), activateStatic s b x l = some s' → Idled s s'
  | [], s, s', h => by rw [activateStatic, Option.some.injEq] at h; rw [h]; exact Idled.refl _
  | r :: l, s, s', h => by
    rw [activateStatic] at h
    split at h
    · cases h
    · rename_i s1 e1
      refine Idled.trans ?_ (activateStatic_idled b x l _ s' h)
      split at e1
      · exact activate_idled e1
      · rw [Option.some.injEq] at e1; rw [e1]; exact Idled.refl _

theorem unthread_idled (s : St K) (r : Nat) : Idled s (unthread s r) := by
  unfold unthread
  exact (Idled.setB s (s.ar r).a (fun d => { d with arbs := d.arbs.erase r }) (fun d => Or.inl rfl)).trans
    (Idled.setB _ (s.ar r).b (fun d => { d with arbs := d.arbs.erase r }) (fun d => Or.inl rfl))

theorem filterArbs_idled (b x : Nat) : ∀ (l : List Nat) (s : St K), Idled s (filterArbs s b x l)
  | [], s => Idled.refl s
  | r :: l, s => by
    rw [filterArbs]
    refine Idled.trans ?_ (filterArbs_idled b x l _)
    have k : Idled s (cachedFilter s b x r).1 := by
      unfold cachedFilter
      dsimp only
      split
      · refine Idled.trans (s1 := if (s.ar r).state ≠ .cached then { s.setA r fun d => { d with state := .invalidated } with evs := .separate (s.ar r).sa (s.ar r).sb :: s.evs } else s) ?_ ?_
        · split <;> exact Idled.of_eq rfl rfl
        · exact unthread_idled _ r
      · exact Idled.refl s
    split
    · exact k
    · exact k

theorem removeShape_idled {s s' : St K} {x : Nat} (h : removeShape s x = some s') : Idled s s' := by
  unfold removeShape at h
  dsimp only at h
  split at h
  · cases h
  · rename_i s1 e1
    have k1 : Idled s s1 := by
      split at e1
      · exact activateStatic_idled _ _ _ _ _ e1
      · exact activate_idled e1
    have k2 := (k1.trans (Idled.setB s1 (s.sh x).body (fun d => { d with shapes := swapRemove d.shapes x }) (fun d => Or.inl rfl))).trans
      (filterArbs_idled (s.sh x).body x (s1.setB (s.sh x).body fun d => { d with shapes := swapRemove d.shapes x }).cached _)
    split at h
    · cases h
    · rename_i s4 e4
      rw [Option.some.injEq] at h
      rw [← h]
      refine Idled.trans (k2.trans ?_) (Idled.of_eq rfl rfl : Idled s4 _)
      split at e4
      · split at e4
        · cases e4
        · rw [Option.some.injEq] at e4; rw [← e4]; exact Idled.of_eq rfl rfl
      · split at e4
        · cases e4
        · rw [Option.some.injEq] at e4; rw [← e4]; exact Idled.of_eq rfl rfl

theorem moveShapes_idled (o n : Bool) : ∀ (l : List Nat) (s s' : St K), moveShapes s o n l = some s' → Idled s s'
  | [], s, s', h => by rw [moveShapes, Option.some.injEq] at h; rw [← h]; exact Idled.refl _
  | x :: l, s, s', h => by
    rw [moveShapes] at h
    split at h
    · cases h
    · rename_i s1 e1
      have k1 : Idled s s1 := by
        split at e1
        · split at e1
          · cases e1
          · rw [Option.some.injEq] at e1; rw [← e1]; exact Idled.of_eq rfl rfl
        · split at e1
          · cases e1
          · rw [Option.some.injEq] at e1; rw [← e1]; exact Idled.of_eq rfl rfl
      refine Idled.trans (k1.trans ?_) (moveShapes_idled o n l _ s' h)
      split <;> exact Idled.of_eq rfl rfl

theorem setType_idled {s s' : St K} {b : Nat} {k : Kind} (h : Sp.setType s b k = some s') : Idled s s' := by
  unfold Sp.setType at h
  dsimp only at h
  split at h
  · rw [Option.some.injEq] at h; rw [h]; exact Idled.refl _
  · have k0 : Idled s (s.setB b fun d => { d with kind := k, idle := 0 }) := Idled.setB s b _ (fun d => Or.inr rfl)
    split at h
    · rw [Option.some.injEq] at h; rw [← h]; exact k0
    · split at h
      · cases h
      · rename_i s2 e2
        have k2 : Idled s s2 := by
          split at e2
          · exact k0.trans (activate_idled e2)
          · rw [Option.some.injEq] at e2; rw [← e2]; exact k0
        refine Idled.trans (k2.trans ?_) (moveShapes_idled _ _ _ _ _ h)
        split
        · exact Idled.of_eq rfl rfl
        · split <;> exact Idled.of_eq rfl rfl

theorem gravityLoop_idled : ∀ (m : Nat) (s s' : St K) (arr : List Nat) (i n : Nat), gravityLoop m s arr i n = some s' → Idled s s'
  | 0, s, s', arr, i, n, h => by rw [gravityLoop] at h; cases h
  | m + 1, s, s', arr, i, n, h => by
    rw [gravityLoop] at h
    split at h
    · split at h
      · cases h
      · split at h
        · cases h
        · rename_i s1 e1
          exact (activate_idled e1).trans (gravityLoop_idled m s1 s' _ _ _ h)
    · rw [Option.some.injEq] at h; rw [h]; exact Idled.refl _

namespace Spec
/-- The time a call lets pass. -/
def Op.time : Op K → K
  | .step inp => inp.dt
  | _ => 0
end Spec

/-- A call other than a step keeps the idle times or sets them to nought. -/
theorem run_idled {s s' : St K} (o : Op K) (ho : ∀ inp, o ≠ .step inp) (e : o.run s = some s') : Idled s s' := by
  cases o with
  | attach x b =>
    rw [Op.run, Option.some.injEq] at e; rw [← e]
    exact Idled.setB _ b _ (fun d => Or.inl rfl)
  | addBody b =>
    rw [Op.run, Option.some.injEq] at e; rw [← e]
    unfold Sp.addBody
    refine Idled.trans ?_ (Idled.setB _ b _ (fun d => Or.inl rfl))
    split <;> exact Idled.of_eq rfl rfl
  | removeBody b =>
    rw [Op.run, Sp.removeBody] at e
    split at e
    · cases e
    · rename_i s1 e1
      rw [Option.some.injEq] at e; rw [← e]
      refine ((activate_idled e1).trans ?_).trans (Idled.setB _ b _ (fun d => Or.inl rfl))
      split <;> exact Idled.of_eq rfl rfl
  | addShape x =>
    rw [Op.run, Sp.addShape] at e
    split at e
    · rw [Option.some.injEq] at e; rw [← e]; exact Idled.of_eq rfl rfl
    · split at e
      · cases e
      · rename_i s1 e1
        rw [Option.some.injEq] at e; rw [← e]
        exact (activate_idled e1).trans (Idled.of_eq rfl rfl)
  | removeShape x => exact removeShape_idled e
  | addJoint c =>
    rw [Op.run, addConstraint] at e
    dsimp only at e
    split at e
    · cases e
    · rename_i s1 e1
      split at e
      · cases e
      · rename_i s2 e2
        rw [Option.some.injEq] at e; rw [← e]
        refine ((activate_idled e1).trans (activate_idled e2)).trans ?_
        refine Idled.trans (s1 := { s2 with cons := s2.cons ++ [c] }) (Idled.of_eq rfl rfl) ?_
        exact ((Idled.setB _ (s.cn c).a (fun d => { d with cons := c :: d.cons }) (fun d => Or.inl rfl)).trans
          (Idled.setB _ (s.cn c).b (fun d => { d with cons := c :: d.cons }) (fun d => Or.inl rfl))).trans (Idled.of_eq rfl rfl)
  | removeJoint c =>
    rw [Op.run, removeConstraint] at e
    dsimp only at e
    split at e
    · cases e
    · rename_i s1 e1
      split at e
      · cases e
      · rename_i s2 e2
        split at e
        · rw [Option.some.injEq] at e; rw [← e]
          refine ((activate_idled e1).trans (activate_idled e2)).trans ?_
          refine Idled.trans (s1 := { s2 with cons := s2.cons.erase c }) (Idled.of_eq rfl rfl) ?_
          exact ((Idled.setB _ (s.cn c).a (fun d => { d with cons := d.cons.erase c }) (fun d => Or.inl rfl)).trans
            (Idled.setB _ (s.cn c).b (fun d => { d with cons := d.cons.erase c }) (fun d => Or.inl rfl))).trans (Idled.of_eq rfl rfl)
        · cases e
  | setType b k => exact setType_idled e
  | wake b => exact activate_idled e
  | gravity => exact gravityLoop_idled _ _ _ _ _ _ e
  | step inp => exact absurd rfl (ho inp)
end Time

section Order
open Sp
variable {K : Type} [Field K] [LinearOrder K] [IsStrictOrderedRing K]

theorem step_idle {kind : Nat → Kind} {ops : List (Op K)} {s s' : St K} (h : ReachedBy kind ops s) (inp : StepIn K) (ho : StepOk s inp) (e : step s inp = some s') (th : K)
    (hth : s.threshold = some th) (hdt : 0 ≤ inp.dt) (T : K) (b : Nat) (hT : 0 ≤ T) (hi : (s.bd b).idle ≤ T) : (s'.bd b).idle ≤ T + inp.dt := by
  obtain ⟨G, A, J⟩ := h.all
  obtain ⟨s1, m, e', G', D⟩ := step_ok G inp ho
  rw [e, Option.some.injEq] at e'
  subst e'
  have hm : (m.bd b).idle ≤ T + inp.dt := by
    rcases D.idle th hth b with k | ⟨i, hi', k⟩
    · rw [k]; linarith
    · have hiT : i ≤ T := by rcases hi' with rfl | rfl <;> assumption
      rw [k]
      split
      · split
        · linarith
        · linarith
      · linarith
  rcases D.lateIdle b with k | k
  · rw [k]; linarith
  · rw [k]; exact hm

/-- After any calls, the idle time has grown by no more than the time that passed. -/
theorem idle_grows {kind : Nat → Kind} (th : K) : ∀ (later ops : List (Op K)) (s s' : St K), ReachedBy kind ops s → Allowed s later → runAll s later = some s' →
    s.threshold = some th → (∀ o ∈ later, 0 ≤ Op.time o) → ∀ (b : Nat) (T : K), 0 ≤ T → (s.bd b).idle ≤ T → (s'.bd b).idle ≤ T + (later.map Op.time).sum ∧ ∃ ops', ReachedBy kind ops' s' ∧ s'.threshold = some th
  | [], ops, s, s', h, ha, e, hth, ht, b, T, hT, hi => by
    rw [runAll, Option.some.injEq] at e
    subst e
    exact ⟨by simpa using hi, ops, h, hth⟩
  | o :: later, ops, s, s', h, ha, e, hth, ht, b, T, hT, hi => by
    rw [runAll] at e
    obtain ⟨G, A, J⟩ := h.all
    obtain ⟨s1, e1, G1, -⟩ := run_good G A o ha.1
    rw [e1] at e
    have hth1 : s1.threshold = some th := by
      rw [← hth]
      by_cases hstep : ∃ inp, o = .step inp
      · obtain ⟨inp, rfl⟩ := hstep
        rw [Op.run, stepPublic] at e1
        split at e1
        · rw [Option.some.injEq] at e1; rw [← e1]
        · rename_i hz
          obtain ⟨s2, m, e2, -, D⟩ := step_ok G inp (ha.1 hz)
          rw [e1, Option.some.injEq] at e2
          rw [e2]
          exact D.threshold
      · exact (run_idled o (fun inp hc => hstep ⟨inp, hc⟩) e1).2
    have ht0 := ht o (by simp)
    have h1 : (s1.bd b).idle ≤ T + Op.time o := by
      by_cases hstep : ∃ inp, o = .step inp
      · obtain ⟨inp, rfl⟩ := hstep
        rw [Op.run, stepPublic] at e1
        split at e1
        · rw [Option.some.injEq] at e1
          rw [← e1]
          have : 0 ≤ inp.dt := ht0
          show _ ≤ T + inp.dt
          linarith
        · rename_i hz
          exact step_idle h inp (ha.1 hz) e1 th hth ht0 T b hT hi
      · have := (run_idled o (fun inp hc => hstep ⟨inp, hc⟩) e1).1 b
        rcases this with k | k
        · rw [k]; linarith
        · rw [k]; linarith
    obtain ⟨i1, i2⟩ := idle_grows th later (ops ++ [o]) s1 s' (h.more ha.1 e1) (ha.2 s1 e1) e hth1 (fun o ho => ht o (by simp [ho])) b _ (by linarith) h1
    refine ⟨?_, i2⟩
    rw [List.map_cons, List.sum_cons]
    linarith

/-- **C131.** A body that was awake and too fast in a step is asleep after later calls only if their steps took at least the sleep time together. -/
theorem C131_recent {kind : Nat → Kind} {ops : List (Op K)} {s : St K} (h : ReachedBy kind ops s) (th : K) (hth : s.threshold = some th) (inp : StepIn K) (h0 : inp.dt ≠ 0) (hdt : 0 ≤ inp.dt)
    (b : Nat) (hin : ((emptyList kind).after ops).bodies b = true) (hk : ((emptyList kind).after ops).kinds b = .dynamic) (haw : ¬ asleep s b) (hfast : inp.moving b = true)
    (later : List (Op K)) (ha : Allowed s (.step inp :: later)) (ht : ∀ o ∈ later, 0 ≤ Op.time o) :
    ∃ s', runAll s (.step inp :: later) = some s' ∧ (asleep s' b → th ≤ (later.map Op.time).sum) := by
  obtain ⟨G, A, J⟩ := h.all
  have ho : StepOk s inp := ha.1 h0
  obtain ⟨s1, e1, c1, -⟩ := C25_idle h inp ho th hth
  have er : (Op.step inp).run s = some s1 := by rw [Op.run, stepPublic, if_neg h0]; exact e1
  have hi1 : (s1.bd b).idle = 0 := by
    rcases c1 b haw hin hk with k | k
    · exact k
    · rw [hfast] at k; cases k.1
  have h1 := h.more ha.1 er
  obtain ⟨G1, A1, J1⟩ := h1.all
  obtain ⟨s', e', G', A'⟩ := runAll_good later s1 _ G1 A1 (ha.2 s1 er)
  have hth1 : s1.threshold = some th := by
    obtain ⟨s2, m, e2, -, D⟩ := step_ok G inp ho
    rw [e1, Option.some.injEq] at e2
    subst e2
    rw [D.threshold]; exact hth
  obtain ⟨i1, ops', i2, i3⟩ := idle_grows th later _ s1 s' h1 (ha.2 s1 er) e' hth1 ht b 0 le_rfl hi1.le
  refine ⟨s', by rw [runAll, er]; exact e', fun hs => ?_⟩
  obtain ⟨-, -, J'⟩ := i2.all
  have := J'.slow th i3 b hs
  linarith

/-- **C131.** So with sleep time `th`: a body faster than the idle speed in a step is awake as long as the steps since take less than `th` together, whatever is called. -/
theorem C131_awake {kind : Nat → Kind} {ops : List (Op K)} {s : St K} (h : ReachedBy kind ops s) (th : K) (hth : s.threshold = some th) (inp : StepIn K) (h0 : inp.dt ≠ 0) (hdt : 0 ≤ inp.dt)
    (idleSpeed : K) (g : V2 K) (d : K) (hd : IdleSpeed idleSpeed g inp.dt d) (k : K)
    (b : Nat) (rec : Body K) (hm : 0 < rec.m) (hi : rec.i = rec.m * k ^ 2) (hmov : inp.moving b = rec.tooFast (idleSpeedSq idleSpeed g inp.dt)) (hv : d ^ 2 < rec.v.x ^ 2 + rec.v.y ^ 2)
    (hin : ((emptyList kind).after ops).bodies b = true) (hk : ((emptyList kind).after ops).kinds b = .dynamic) (haw : ¬ asleep s b)
    (later : List (Op K)) (ha : Allowed s (.step inp :: later)) (ht : ∀ o ∈ later, 0 ≤ Op.time o) (hlt : (later.map Op.time).sum < th) :
    ∃ s', runAll s (.step inp :: later) = some s' ∧ ¬ asleep s' b := by
  obtain ⟨s', e, c⟩ := C131_recent h th hth inp h0 hdt b hin hk haw (by rw [hmov]; exact (C131_rest_is_slow idleSpeed g inp.dt d k hd rec hm hi).2.1 hv) later ha ht
  exact ⟨s', e, fun hs => absurd (c hs) (not_le.2 hlt)⟩
end Order

section Sample
open Sp

/-- The bodies of the example have been set down. -/
def dozeStart : St ℚ := (runAll demoNew demoRest).get (by decide +kernel)

theorem dozeStart_eq : runAll demoNew demoRest = some dozeStart := by simp [dozeStart]

theorem doze_reached : ReachedBy demoKind demoRest dozeStart :=
  ⟨7, _, _, 3, some 1, by decide, by intro th h; simp at h; rw [← h]; decide, okAll_allowed _ _ _ demo_good demo_agree (by decide +kernel), dozeStart_eq⟩

/-- A step in which all bodies are fast. -/
def dozeStep : StepIn ℚ := { dt := 1/4, moving := fun b => b != 0, hits := demoHits.map fun p => ⟨p.1, p.2, 1, true, true, false, []⟩, lateWake := [] }

def dozeLater (n : Nat) : List (Op ℚ) := List.replicate n (demoStep (1/4) demoHits)

/-- The bodies stay awake for three more steps; in the fourth they fall asleep. -/
example : ∃ s', runAll dozeStart (.step dozeStep :: dozeLater 3) = some s' ∧ (asleep s' 1 → (1 : ℚ) ≤ ((dozeLater 3).map Op.time).sum) :=
  C131_recent doze_reached 1 (by decide +kernel) dozeStep (by decide +kernel) (by decide +kernel) 1 (by decide +kernel) (by decide +kernel)
    (by show ¬ (_ ≠ _); decide +kernel) (by decide +kernel) (dozeLater 3)
    (okAll_allowed _ _ _ doze_reached.all.1 doze_reached.all.2.1 (by decide +kernel))
    (by intro o ho; obtain rfl := List.eq_of_mem_replicate ho; decide +kernel)

example : (runAll dozeStart (.step dozeStep :: dozeLater 3)).map (·.sleeping) = some [] ∧ (runAll dozeStart (.step dozeStep :: dozeLater 4)).map (·.sleeping) = some [1, 3, 4] := by
  exact ⟨by decide +kernel, by decide +kernel⟩
end Sample

end Cm
