import Verif.Proofs.SpaceGravity
import Verif.Spec.History
import Verif.Model.SpaceEach

/-!
# Any allowed sequence of calls

The conditions under which each call is allowed, and the theorem that an allowed sequence of calls on an empty space
never fails, keeps the invariant, and leaves in the space what the reference says.
-/

set_option linter.unusedSectionVars false
set_option linter.unusedSimpArgs false
set_option linter.unusedVariables false

namespace Cm
namespace Sp
open Spec

variable {K : Type} [Zero K] [LT K] [DecidableRel (α := K) (· < ·)] [Add K] [DecidableEq K]

/-- What the user has to see to before the call. -/
def Op.Allowed (s : St K) : Op K → Prop
  | .attach x b => AttachOk s x b
  | .addBody b => b < s.nb ∧ (s.bd b).space = false
  | .removeBody b => (s.bd b).space = true ∧ ((s.bd b).kind ≠ .static → BareBody s b)
  | .addShape x => AddShapeOk s x
  | .removeShape x => (s.sh x).space = true
  | .addJoint c => AddJointOk s c
  | .removeJoint c => (s.cn c).space = true
  | .setType b _ => SetTypeOk s b
  | .wake _ => True
  | .gravity => True
  | .step inp => inp.dt ≠ 0 → StepOk s inp

/-- A sequence of calls, each allowed when it is made. -/
def Allowed (s : St K) : List (Op K) → Prop
  | [] => True
  | o :: l => o.Allowed s ∧ ∀ s', o.run s = some s' → Allowed s' l

/-- The state agrees with the reference. -/
structure Agree (s : St K) (L : Listed) : Prop where
  bodies : ∀ b, (s.bd b).space = L.bodies b
  shapes : ∀ x, (s.sh x).space = L.shapes x
  joints : ∀ c, (s.cn c).space = L.joints c
  kinds : ∀ b, (s.bd b).kind = L.kinds b
  home : ∀ x b, x ∈ (s.bd b).shapes ↔ L.home x = some b

theorem Agree.congr {s s' : St K} {L : Listed} (A : Agree s L) (h1 : ∀ b, (s'.bd b).space = (s.bd b).space) (h2 : ∀ x, (s'.sh x).space = (s.sh x).space)
    (h3 : ∀ c, (s'.cn c).space = (s.cn c).space) (h4 : ∀ b, (s'.bd b).kind = (s.bd b).kind) (h5 : ∀ b, (s'.bd b).shapes = (s.bd b).shapes) : Agree s' L :=
  ⟨fun b => (h1 b).trans (A.bodies b), fun x => (h2 x).trans (A.shapes x), fun c => (h3 c).trans (A.joints c), fun b => (h4 b).trans (A.kinds b),
    fun x b => by rw [h5]; exact A.home x b⟩

theorem Quiet.agree {s s' : St K} {L : Listed} (q : Quiet s s') (A : Agree s L) : Agree s' L :=
  A.congr (fun b => (q.bd b).2.2.2.2) (fun x => by rw [q.sh]) (fun c => by rw [q.cn]) (fun b => (q.bd b).1) (fun b => (q.bd b).2.1)

/-- Which objects are in the space, and of what type, is the same. -/
structure Kept (s s' : St K) : Prop where
  bd : ∀ c, (s'.bd c).kind = (s.bd c).kind ∧ (s'.bd c).shapes = (s.bd c).shapes ∧ (s'.bd c).space = (s.bd c).space
  sh : s'.sh = s.sh
  cn : s'.cn = s.cn

theorem Kept.refl (s : St K) : Kept s s := ⟨fun _ => ⟨rfl, rfl, rfl⟩, rfl, rfl⟩

theorem Kept.trans {s s1 s2 : St K} (a : Kept s s1) (b : Kept s1 s2) : Kept s s2 :=
  ⟨fun c => ⟨(b.bd c).1.trans (a.bd c).1, (b.bd c).2.1.trans (a.bd c).2.1, (b.bd c).2.2.trans (a.bd c).2.2⟩, b.sh.trans a.sh, b.cn.trans a.cn⟩

theorem Kept.agree {s s' : St K} {L : Listed} (q : Kept s s') (A : Agree s L) : Agree s' L :=
  A.congr (fun b => (q.bd b).2.2) (fun x => by rw [q.sh]) (fun c => by rw [q.cn]) (fun b => (q.bd b).1) (fun b => (q.bd b).2.1)

theorem Kept.setB (s : St K) (b : Nat) (f : Bd K → Bd K) (h : ∀ d, (f d).kind = d.kind ∧ (f d).shapes = d.shapes ∧ (f d).space = d.space) : Kept s (s.setB b f) := by
  refine ⟨fun c => ?_, rfl, rfl⟩
  simp only [St.setB]; split
  · rename_i e; rw [e]; exact h _
  · exact ⟨rfl, rfl, rfl⟩

theorem wakeShapes_kept : ∀ (l : List Nat) (s s' : St K), wakeShapes s l = some s' → Kept s s'
  | [], s, s', h => by rw [wakeShapes, Option.some.injEq] at h; rw [h]; exact Kept.refl _
  | x :: l, s, s', h => by
    rw [wakeShapes] at h
    split at h
    · cases h
    · have := wakeShapes_kept l _ s' h
      exact ⟨this.bd, this.sh, this.cn⟩

theorem wakeArbs_kept (b : Nat) : ∀ (l : List Nat) (s : St K), Kept s (wakeArbs s b l)
  | [], s => Kept.refl s
  | r :: l, s => by
    rw [wakeArbs]
    refine Kept.trans ?_ (wakeArbs_kept b l _)
    split
    · unfold restoreArb; simp only [St.setA]; split <;> exact ⟨fun _ => ⟨rfl, rfl, rfl⟩, rfl, rfl⟩
    · exact Kept.refl s

theorem wakeCons_kept (b : Nat) : ∀ (l : List Nat) (s : St K), Kept s (wakeCons s b l)
  | [], s => Kept.refl s
  | r :: l, s => by
    rw [wakeCons]
    refine Kept.trans ?_ (wakeCons_kept b l _)
    split <;> exact ⟨fun _ => ⟨rfl, rfl, rfl⟩, rfl, rfl⟩

theorem spaceActivate_kept {s s' : St K} {b : Nat} (h : spaceActivate s b = some s') : Kept s s' := by
  unfold spaceActivate at h
  split at h
  · rw [Option.some.injEq] at h; rw [← h]; split <;> exact ⟨fun _ => ⟨rfl, rfl, rfl⟩, rfl, rfl⟩
  · unfold wakeBody at h
    split at h
    · cases h
    · rename_i s1 e1
      rw [Option.some.injEq] at h
      rw [← h]
      have k := wakeShapes_kept _ _ _ e1
      have k' : Kept s s1 := ⟨k.bd, k.sh, k.cn⟩
      exact (k'.trans (wakeArbs_kept b _ _)).trans (wakeCons_kept b _ _)

theorem activateLoop_kept : ∀ (n : Nat) (s s' : St K) (o : Option Nat), activateLoop n s o = some s' → Kept s s'
  | 0, s, s', o, h => by rw [activateLoop] at h; cases h
  | n + 1, s, s', none, h => by rw [activateLoop, Option.some.injEq] at h; rw [h]; exact Kept.refl _
  | n + 1, s, s', some b, h => by
    rw [activateLoop] at h
    split at h
    · cases h
    · rename_i s1 e1
      refine (Kept.trans ?_ (spaceActivate_kept e1)).trans (activateLoop_kept n _ s' _ h)
      exact Kept.setB s b _ (fun d => ⟨rfl, rfl, rfl⟩)

theorem activate_kept {s s' : St K} {b : Nat} (h : activate s b = some s') : Kept s s' := by
  unfold activate at h
  split at h
  · rw [Option.some.injEq] at h; rw [h]; exact Kept.refl _
  · simp only at h
    have k0 : Kept s (s.setB b fun d => { d with idle := 0 }) := Kept.setB s b _ (fun d => ⟨rfl, rfl, rfl⟩)
    split at h
    · cases h
    · rename_i s3 e3
      rw [Option.some.injEq] at h
      have k3 : Kept s s3 := by
        split at e3
        · rw [Option.some.injEq] at e3; rw [← e3]; exact k0
        · split at e3
          · split at e3
            · cases e3
            · rename_i s2 e2
              rw [Option.some.injEq] at e3
              have := k0.trans (activateLoop_kept _ _ _ _ e2)
              rw [← e3]; exact ⟨this.bd, this.sh, this.cn⟩
          · rw [Option.some.injEq] at e3; rw [← e3]; exact k0
      rw [← h]
      obtain ⟨t, _⟩ := touchIdle_same (s3.bd b).arbs s3 b
      exact k3.trans ⟨fun c => ⟨(t.bd c).1, (t.bd c).2.2.2.1, (t.bd c).2.2.2.2.2.2⟩, by rw [t.rest], by rw [t.rest]⟩

theorem moveShapes_kept (o n : Bool) : ∀ (l : List Nat) (s s' : St K), moveShapes s o n l = some s' → Kept s s'
  | [], s, s', h => by rw [moveShapes, Option.some.injEq] at h; rw [← h]; exact Kept.refl _
  | x :: l, s, s', h => by
    rw [moveShapes] at h
    split at h
    · cases h
    · rename_i s1 e1
      have k1 : Kept s s1 := by
        split at e1
        · split at e1
          · cases e1
          · rw [Option.some.injEq] at e1; rw [← e1]; exact ⟨fun _ => ⟨rfl, rfl, rfl⟩, rfl, rfl⟩
        · split at e1
          · cases e1
          · rw [Option.some.injEq] at e1; rw [← e1]; exact ⟨fun _ => ⟨rfl, rfl, rfl⟩, rfl, rfl⟩
      refine Kept.trans (k1.trans ?_) (moveShapes_kept o n l _ s' h)
      split <;> exact ⟨fun _ => ⟨rfl, rfl, rfl⟩, rfl, rfl⟩

theorem run_good {s : St K} {L : Listed} (G : Good s) (A : Agree s L) (o : Op K) (h : o.Allowed s) :
    ∃ s', o.run s = some s' ∧ Good s' ∧ Agree s' (L.next o) := by
  cases o with
  | attach x b =>
    refine ⟨_, rfl, attach_good G h, ⟨?_, ?_, ?_, ?_, ?_⟩⟩
    · intro c; simp only [attach, St.setB, St.setS]; split <;> rename_i e <;> simp [e, Listed.next, A.bodies]
    · intro y; simp only [attach, St.setB, St.setS]; split <;> rename_i e <;> simp [e, Listed.next, A.shapes]
    · exact A.joints
    · intro c; simp only [attach, St.setB, St.setS]; split <;> rename_i e <;> simp [e, Listed.next, A.kinds]
    · intro y c
      simp only [attach, St.setB, St.setS, Listed.next]
      by_cases hy : y = x
      · subst hy
        by_cases hc : c = b
        · simp [hc]
        · simp only [if_neg hc, if_true]
          constructor
          · intro h'; exact absurd h' (h.free c)
          · intro h'; simp at h'; exact absurd h'.symm hc
      · rw [if_neg hy, ← A.home]
        split
        · rename_i e; rw [e]; simp [hy]
        · rfl
  | addBody b =>
    refine ⟨_, rfl, addBody_good G h.1 h.2, ?_⟩
    have e : ∀ c, (addBody s b).bd c = if c = b then { s.bd b with space := true } else s.bd c := by
      intro c; simp only [addBody, St.setB]; split <;> split <;> rfl
    have es : (addBody s b).sh = s.sh ∧ (addBody s b).cn = s.cn := by
      simp only [addBody, St.setB]; split <;> exact ⟨rfl, rfl⟩
    refine ⟨?_, fun x => by rw [es.1]; exact A.shapes x, fun x => by rw [es.2]; exact A.joints x, ?_, ?_⟩
    · intro c; rw [e]; split <;> rename_i e <;> simp [e, Listed.next, A.bodies]
    · intro c; rw [e]; split <;> rename_i e <;> simp [e, Listed.next, A.kinds]
    · intro y c; rw [e]; split
      · rename_i e; rw [e]; exact A.home y b
      · exact A.home y c
  | removeBody b =>
    obtain ⟨s', e', G', _⟩ := removeBody_good G h.1 h.2
    refine ⟨s', e', G', ?_⟩
    unfold removeBody at e'
    split at e'
    · cases e'
    · rename_i s1 e1
      rw [Option.some.injEq] at e'
      have k := activate_kept e1
      have A1 := k.agree A
      have e : ∀ c, s'.bd c = if c = b then { s1.bd b with space := false } else s1.bd c := by
        intro c; rw [← e']; simp only [St.setB]; split <;> split <;> rfl
      have es : s'.sh = s1.sh ∧ s'.cn = s1.cn := by
        rw [← e']; simp only [St.setB]; split <;> exact ⟨rfl, rfl⟩
      refine ⟨?_, fun x => by rw [es.1]; exact A1.shapes x, fun x => by rw [es.2]; exact A1.joints x, ?_, ?_⟩
      · intro c; rw [e]; split <;> rename_i e <;> simp [e, Listed.next, A1.bodies]
      · intro c; rw [e]; split <;> rename_i e <;> simp [e, Listed.next, A1.kinds]
      · intro y c; rw [e]; split
        · rename_i e; rw [e]; exact A1.home y b
        · exact A1.home y c
  | addShape x =>
    obtain ⟨s', e', G', _⟩ := addShape_good G h
    refine ⟨s', e', G', ?_⟩
    have key : ∃ s1 : St K, Kept s s1 ∧ s'.bd = s1.bd ∧ s'.cn = s1.cn ∧ s'.sh = fun y => if y = x then { s1.sh x with space := true } else s1.sh y := by
      change addShape s x = _ at e'
      unfold addShape at e'
      simp only at e'
      split at e'
      · rw [Option.some.injEq] at e'
        refine ⟨s, Kept.refl s, ?_, ?_, ?_⟩ <;> (rw [← e']; rfl)
      · split at e'
        · cases e'
        · rename_i s1 e1
          rw [Option.some.injEq] at e'
          refine ⟨s1, activate_kept e1, ?_, ?_, ?_⟩ <;> (rw [← e']; rfl)
    obtain ⟨s1, k, eb, ec, es⟩ := key
    have A1 := k.agree A
    refine ⟨fun b => by rw [eb]; exact A1.bodies b, ?_, fun c => by rw [ec]; exact A1.joints c, fun b => by rw [eb]; exact A1.kinds b, fun y b => by rw [eb]; exact A1.home y b⟩
    intro y; rw [es]; simp only; split <;> rename_i e <;> simp [e, Listed.next, A1.shapes]
  | removeShape x =>
    obtain ⟨s', e', G', D⟩ := removeShape_good G h
    refine ⟨s', e', G', ⟨?_, ?_, ?_, ?_, ?_⟩⟩
    · intro c; rw [(D.bd c).2.2]; exact A.bodies c
    · intro y
      have h1 := (D.sh y).2
      have h2 := A.shapes y
      simp only [Listed.next]
      rw [Bool.eq_iff_iff, h1, h2]; simp [and_comm]
    · intro c; rw [D.cn]; exact A.joints c
    · intro c; rw [(D.bd c).1]; exact A.kinds c
    · intro y c
      rw [D.shapes, A.home]
      simp only [Listed.next]
      by_cases hy : y = x <;> simp [hy]
  | addJoint c =>
    obtain ⟨s', e', G', D, _⟩ := addConstraint_good G h
    refine ⟨s', e', G', ?_⟩
    unfold addConstraint at e'
    simp only at e'
    split at e'
    · cases e'
    · rename_i s1 e1
      split at e'
      · cases e'
      · rename_i s2 e2
        rw [Option.some.injEq] at e'
        have k := (activate_kept e1).trans (activate_kept e2)
        have A2 := k.agree A
        have k3 : ∀ d, (s'.bd d).kind = (s2.bd d).kind ∧ (s'.bd d).shapes = (s2.bd d).shapes ∧ (s'.bd d).space = (s2.bd d).space := by
          intro d
          rw [← e']
          have k4 := (Kept.setB { s2 with cons := s2.cons ++ [c] } (s.cn c).a (fun d => { d with cons := c :: d.cons }) (fun d => ⟨rfl, rfl, rfl⟩)).trans
            (Kept.setB _ (s.cn c).b (fun d => { d with cons := c :: d.cons }) (fun d => ⟨rfl, rfl, rfl⟩))
          exact k4.bd d
        refine ⟨fun b => (k3 b).2.2.trans (A2.bodies b), fun y => ?_, ?_, fun b => (k3 b).1.trans (A2.kinds b), fun y b => by rw [(k3 b).2.1]; exact A2.home y b⟩
        · rw [← e']; exact A2.shapes y
        · intro d
          have h1 := (D d).2.2
          have h2 := A.joints d
          simp only [Listed.next]
          rw [Bool.eq_iff_iff, h1, h2]; simp [or_comm]
  | removeJoint c =>
    obtain ⟨s', e', G', D, _⟩ := removeConstraint_good G h
    refine ⟨s', e', G', ?_⟩
    unfold removeConstraint at e'
    simp only at e'
    split at e'
    · cases e'
    · rename_i s1 e1
      split at e'
      · cases e'
      · rename_i s2 e2
        split at e'
        rotate_left
        · cases e'
        rw [Option.some.injEq] at e'
        have k := (activate_kept e1).trans (activate_kept e2)
        have A2 := k.agree A
        have k3 : ∀ d, (s'.bd d).kind = (s2.bd d).kind ∧ (s'.bd d).shapes = (s2.bd d).shapes ∧ (s'.bd d).space = (s2.bd d).space := by
          intro d
          rw [← e']
          have k4 := (Kept.setB { s2 with cons := s2.cons.erase c } (s.cn c).a (fun d => { d with cons := d.cons.erase c }) (fun d => ⟨rfl, rfl, rfl⟩)).trans
            (Kept.setB _ (s.cn c).b (fun d => { d with cons := d.cons.erase c }) (fun d => ⟨rfl, rfl, rfl⟩))
          exact k4.bd d
        refine ⟨fun b => (k3 b).2.2.trans (A2.bodies b), fun y => ?_, ?_, fun b => (k3 b).1.trans (A2.kinds b), fun y b => by rw [(k3 b).2.1]; exact A2.home y b⟩
        · rw [← e']; exact A2.shapes y
        · intro d
          have h1 := (D d).2.2
          have h2 := A.joints d
          simp only [Listed.next]
          rw [Bool.eq_iff_iff, h1, h2]; simp [and_comm]
  | setType b k =>
    obtain ⟨s', e', G', D, _⟩ := setType_good G h k
    refine ⟨s', e', G', ?_⟩
    have key : (∀ c, (s'.bd c).space = (s.bd c).space ∧ (s'.bd c).shapes = (s.bd c).shapes) ∧ s'.sh = s.sh ∧ s'.cn = s.cn := by
      unfold setType at e'
      simp only at e'
      split at e'
      · rw [Option.some.injEq] at e'; rw [e']; exact ⟨fun _ => ⟨rfl, rfl⟩, rfl, rfl⟩
      · have k0 : ∀ c, ((s.setB b fun d => { d with kind := k, idle := 0 }).bd c).space = (s.bd c).space ∧ ((s.setB b fun d => { d with kind := k, idle := 0 }).bd c).shapes = (s.bd c).shapes := by
          intro c; simp only [St.setB]; split <;> rename_i e <;> simp [e]
        split at e'
        · rw [Option.some.injEq] at e'; rw [← e']
          exact ⟨k0, rfl, rfl⟩
        · split at e'
          · cases e'
          · rename_i s2 e2
            have k2 : Kept (s.setB b fun d => { d with kind := k, idle := 0 }) s2 := by
              split at e2
              · exact activate_kept e2
              · rw [Option.some.injEq] at e2; rw [e2]; exact Kept.refl _
            have k3 := moveShapes_kept _ _ _ _ _ e'
            have k4 : Kept s2 s' := by
              refine Kept.trans ?_ k3
              split
              · exact ⟨fun _ => ⟨rfl, rfl, rfl⟩, rfl, rfl⟩
              · split <;> exact ⟨fun _ => ⟨rfl, rfl, rfl⟩, rfl, rfl⟩
            have k5 := k2.trans k4
            exact ⟨fun c => ⟨(k5.bd c).2.2.trans (k0 c).1, (k5.bd c).2.1.trans (k0 c).2⟩, k5.sh, k5.cn⟩
    refine ⟨fun c => by rw [(key.1 c).1]; exact A.bodies c, fun x => by rw [key.2.1]; exact A.shapes x, fun c => by rw [key.2.2]; exact A.joints c, ?_,
      fun x c => by rw [(key.1 c).2]; exact A.home x c⟩
    intro c; rw [D]; simp only [Listed.next, A.kinds]
  | wake b =>
    obtain ⟨s1, e1, H1, w1⟩ := activate_ok G.ok b
    exact ⟨s1, e1, G.woken H1 w1, w1.quiet.agree A⟩
  | gravity =>
    obtain ⟨s1, e1, G1, w1, _⟩ := setGravity_good G
    exact ⟨s1, e1, G1, w1.quiet.agree A⟩
  | step inp =>
    by_cases hz : inp.dt = 0
    · exact ⟨s, by simp only [Op.run, stepPublic, if_pos hz], G, A⟩
    obtain ⟨s', m, e', G', D⟩ := step_ok G inp (h hz)
    exact ⟨s', by simp only [Op.run, stepPublic, if_neg hz]; exact e', G', A.congr (fun b => (D.bd b).2.2.2) (fun x => by rw [D.sh]) (fun c => by rw [D.cn]) (fun b => (D.bd b).1) (fun b => (D.bd b).2.1)⟩

theorem runAll_good : ∀ (l : List (Op K)) (s : St K) (L : Listed), Good s → Agree s L → Allowed s l →
    ∃ s', runAll s l = some s' ∧ Good s' ∧ Agree s' (L.after l)
  | [], s, L, G, A, _ => ⟨s, rfl, G, A⟩
  | o :: l, s, L, G, A, h => by
    obtain ⟨s1, e1, G1, A1⟩ := run_good G A o h.1
    obtain ⟨s2, e2, G2, A2⟩ := runAll_good l s1 (L.next o) G1 A1 (h.2 s1 e1)
    exact ⟨s2, by rw [runAll, e1]; exact e2, G2, A2⟩

/-- `NewSpace`: space.go:88-130. The bodies, shapes and joints there are in the program, none of them in the space or
attached: `kind` are the types of the bodies, `cn` the ends of the joints, `sensor` the shapes that are sensors. -/
def new (nb : Nat) (kind : Nat → Kind) (ends : Nat → Nat × Nat) (sensor : Nat → Bool) (persistence : Nat) (threshold : Option K) : St K where
  bd b := { kind := kind b, idle := 0, root := none, next := none, shapes := [], arbs := [], cons := [], space := false }
  sh x := { body := 0, space := false, sensor := sensor x }
  cn c := { a := (ends c).1, b := (ends c).2, space := false }
  ar _ := { sa := 0, sb := 0, a := 0, b := 0, state := .first, stamp := 0, count := 0 }
  nb := nb
  dyn := []
  stat := []
  roused := []
  sleeping := []
  dynIdx := []
  statIdx := []
  cons := []
  arbiters := []
  cached := []
  stamp := 0
  persistence := persistence
  threshold := threshold
  locked := 0
  fresh := 0
  pool := []
  evs := []

theorem new_good (nb : Nat) (kind : Nat → Kind) (ends : Nat → Nat × Nat) (sensor : Nat → Bool) (persistence : Nat) (threshold : Option K)
    (hp : 1 ≤ persistence) (ht : ∀ th, threshold = some th → (0 : K) < th) : Good (new nb kind ends sensor persistence threshold) := by
  have hl : ∀ r, ¬ live (new nb kind ends sensor persistence threshold) r := by intro r; simp [live, thr, new]
  have hth : ∀ r, ¬ thr (new nb kind ends sensor persistence threshold) r := by intro r; simp [thr, new]
  refine ⟨⟨⟨?_, ?_, ?_, ?_, ?_⟩, by simp [new], fun _ => rfl⟩, ?_, rfl, fun _ _ => rfl, fun _ _ => rfl, hp, ht⟩
  · constructor <;> simp [new]
  · constructor <;> simp [new]
  · constructor <;> simp [new, off]
  · constructor <;> simp [new]
  · constructor <;> simp [new, live, thr]
  · constructor <;> simp [new, live, thr, phase]

theorem new_agree (nb : Nat) (kind : Nat → Kind) (ends : Nat → Nat × Nat) (sensor : Nat → Bool) (persistence : Nat) (threshold : Option K) :
    Agree (new nb kind ends sensor persistence threshold) ⟨fun _ => false, fun _ => false, fun _ => false, kind, fun _ => none⟩ := by
  constructor <;> simp [new]

end Sp
end Cm
