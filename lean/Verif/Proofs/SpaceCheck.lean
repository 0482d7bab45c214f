import Verif.Proofs.SpaceHistory
import Mathlib.Data.Rat.Floor

/-!
# Checking by evaluation that calls are allowed

Used for the examples beside the theorems.
-/

set_option linter.unusedSectionVars false
set_option linter.unusedSimpArgs false
set_option linter.unusedVariables false

namespace Cm
namespace Sp
open Spec

variable {K : Type} [Zero K] [LT K] [DecidableRel (α := K) (· < ·)] [Add K] [DecidableEq K]

/-- The shapes of the body are in the static index. -/
def still (s : St K) (b : Nat) : Bool := decide ((s.bd b).kind = .static) || (s.bd b).root.isSome

/-- The call is allowed. -/
def Op.ok (s : St K) (L : Listed) : Op K → Bool
  | .attach x b => decide (L.home x = none) && (s.bd b).root.isNone
  | .addBody b => decide (b < s.nb) && !(s.bd b).space
  | .removeBody b => (s.bd b).space && (decide ((s.bd b).kind = .static) || ((s.bd b).shapes.all (fun x => !(s.sh x).space) && (s.bd b).cons.isEmpty))
  | .addShape x => decide (x ∈ (s.bd (s.sh x).body).shapes) && !(s.sh x).space && (decide ((s.bd (s.sh x).body).kind = .static) || (s.bd (s.sh x).body).space)
  | .removeShape x => (s.sh x).space
  | .addJoint c => !(s.cn c).space && !decide ((s.cn c).a = (s.cn c).b) && (decide ((s.bd (s.cn c).a).kind = .static) || (s.bd (s.cn c).a).space) &&
      (decide ((s.bd (s.cn c).b).kind = .static) || (s.bd (s.cn c).b).space)
  | .removeJoint c => (s.cn c).space
  | .setType b _ => (s.bd b).root.isNone &&
      ((s.bd b).space || !decide ((s.bd b).kind = .static) || ((s.bd b).shapes.all (fun x => !(s.sh x).space) && (s.bd b).cons.isEmpty)) &&
      (!(s.bd b).space || (s.bd b).shapes.all fun x => (s.sh x).space) &&
      (!decide ((s.bd b).kind = .static) || ((s.bd b).cons.all fun c => (s.bd (s.cn c).a).root.isNone && (s.bd (s.cn c).b).root.isNone)) &&
      (!decide ((s.bd b).kind = .static) || ((s.bd b).arbs.all fun r => (s.bd (s.ar r).a).root.isNone && (s.bd (s.ar r).b).root.isNone))
  | .wake _ => true
  | .gravity => true
  | .step inp =>
      (inp.hits.all fun h => (s.sh h.x).space && (s.sh h.y).space && !decide ((s.sh h.x).body = (s.sh h.y).body) &&
        !(still s (s.sh h.x).body && still s (s.sh h.y).body) && h.wake.all fun b => (s.bd b).root.isNone) &&
      decide (inp.hits.Pairwise fun h k => ¬ ((h.x = k.x ∧ h.y = k.y) ∨ (h.x = k.y ∧ h.y = k.x))) &&
      (List.range s.nb).all fun b => !(s.bd b).space || decide ((s.bd b).kind = .static) || (s.bd b).shapes.all fun x => (s.sh x).space

theorem still_iff (s : St K) (b : Nat) : still s b = true ↔ frozen s [] b := by
  unfold still frozen
  rw [off_nil]
  cases (s.bd b).root <;> simp

theorem isEmpty_nil {α : Type} {l : List α} (h : l.isEmpty = true) : l = [] := by simpa using h

theorem Op.ok_allowed {s : St K} {L : Listed} (G : Good s) (A : Agree s L) (o : Op K) (h : o.ok s L = true) : o.Allowed s := by
  have I := G.inv
  have bare : ∀ b, ((s.bd b).shapes.all (fun x => !(s.sh x).space) && (s.bd b).cons.isEmpty) = true → BareBody s b := by
    intro b hb
    rw [Bool.and_eq_true, List.all_eq_true] at hb
    refine ⟨fun x hx => ?_, isEmpty_nil hb.2⟩
    by_contra hc
    have hc' : (s.sh x).space = true := by simpa using hc
    have := hb.1 x (by rw [← hx]; exact I.shapes.own x hc')
    simp [hc'] at this
  cases o with
  | attach x b =>
    simp only [Op.ok, Bool.and_eq_true, decide_eq_true_eq, Option.isNone_iff_eq_none] at h
    refine ⟨fun c hc => ?_, h.2⟩
    have := (A.home x c).1 hc
    rw [h.1] at this; cases this
  | addBody b => simpa [Op.ok, Op.Allowed] using h
  | removeBody b =>
    simp only [Op.ok, Bool.and_eq_true, Bool.or_eq_true, decide_eq_true_eq] at h
    refine ⟨h.1, fun hk => bare b ?_⟩
    rcases h.2 with h2 | h2
    · exact absurd h2 hk
    · rw [Bool.and_eq_true]; exact h2
  | addShape x =>
    simp only [Op.ok, Bool.and_eq_true, Bool.or_eq_true, decide_eq_true_eq, Bool.not_eq_true'] at h
    exact ⟨h.1.1, h.1.2, fun hk => h.2.resolve_left hk⟩
  | removeShape x => exact h
  | addJoint c =>
    simp only [Op.ok, Bool.and_eq_true, Bool.or_eq_true, decide_eq_true_eq, Bool.not_eq_true', decide_eq_false_iff_not] at h
    exact ⟨h.1.1.1, h.1.1.2, fun hk => h.1.2.resolve_left hk, fun hk => h.2.resolve_left hk⟩
  | removeJoint c => exact h
  | setType b k =>
    simp only [Op.ok, Bool.and_eq_true (a := (s.bd b).root.isNone && _ && _ && _), Bool.and_eq_true (a := (s.bd b).root.isNone && _ && _),
      Bool.and_eq_true (a := (s.bd b).root.isNone && _), Bool.and_eq_true (a := (s.bd b).root.isNone)] at h
    obtain ⟨⟨⟨⟨h1, h2⟩, h3⟩, h4⟩, h5⟩ := h
    refine ⟨Option.isNone_iff_eq_none.1 h1, ?_, ?_, ?_, ?_⟩
    · intro e1 e2
      rw [e1, Bool.false_or, Bool.or_eq_true] at h2
      rcases h2 with h2 | h2
      · simp [e2] at h2
      · exact bare b h2
    · intro e1 x hx
      simp only [e1, Bool.not_true, Bool.false_or, List.all_eq_true] at h3
      exact h3 x hx
    · intro e1 c hc hb
      simp only [e1, decide_true, Bool.not_true, Bool.false_or, List.all_eq_true, Bool.and_eq_true, Option.isNone_iff_eq_none] at h4
      exact h4 c ((I.joints.list b c).2 ⟨hc, hb⟩)
    · intro e1 r hr
      simp only [e1, decide_true, Bool.not_true, Bool.false_or, List.all_eq_true, Bool.and_eq_true, Option.isNone_iff_eq_none] at h5
      exact h5 r hr
  | wake b => trivial
  | gravity => trivial
  | step inp =>
    intro _
    simp only [Op.ok] at h
    rw [Bool.and_eq_true, Bool.and_eq_true, decide_eq_true_eq, List.all_eq_true, List.all_eq_true] at h
    obtain ⟨⟨h1, h2⟩, h3⟩ := h
    refine ⟨fun k hk => ?_, h2, fun b hb hst x hx => ?_⟩
    · have := h1 k hk
      simp only [Bool.and_eq_true, Bool.not_eq_true', decide_eq_false_iff_not, List.all_eq_true, Option.isNone_iff_eq_none] at this
      obtain ⟨⟨⟨⟨a1, a2⟩, a3⟩, a4⟩, a5⟩ := this
      refine ⟨a1, a2, a3, ?_, a5⟩
      rintro ⟨f1, f2⟩
      rw [(still_iff _ _).2 f1, (still_iff _ _).2 f2] at a4
      cases a4
    · have := h3 b (List.mem_range.2 (I.groups.nb b hb))
      simp only [hb, Bool.not_true, Bool.false_or, Bool.or_eq_true, decide_eq_true_eq, List.all_eq_true] at this
      exact this.resolve_left hst x hx

/-- All the calls are allowed. -/
def okAll (s : St K) (L : Listed) : List (Op K) → Bool
  | [] => true
  | o :: l => o.ok s L && match o.run s with
    | none => false
    | some s1 => okAll s1 (L.next o) l

theorem okAll_allowed : ∀ (l : List (Op K)) (s : St K) (L : Listed), Good s → Agree s L → okAll s L l = true → Allowed s l
  | [], s, L, G, A, h => trivial
  | o :: l, s, L, G, A, h => by
    rw [okAll, Bool.and_eq_true] at h
    have hall := o.ok_allowed G A h.1
    obtain ⟨s1, e1, G1, A1⟩ := run_good G A o hall
    refine ⟨hall, fun s' e' => ?_⟩
    rw [e1, Option.some.injEq] at e'
    subst e'
    have h2 := h.2
    rw [e1] at h2
    exact okAll_allowed l s1 (L.next o) G1 A1 h2

/-- The reference for an empty space. -/
def emptyList (kind : Nat → Kind) : Listed := ⟨fun _ => false, fun _ => false, fun _ => false, kind, fun _ => none⟩

/-! ### Some histories -/

/-- A ground and six dynamic bodies, bodies and shapes with the same numbers; the joints are between 1 and 2, and
between 0 and 3. -/
def demoNew : St ℚ := new 7 (fun b => if b = 0 then .static else .dynamic) (fun c => if c = 0 then (1, 2) else (0, 3)) (fun _ => false) 3 (some 1)

def demoList : Listed := emptyList fun b => if b = 0 then .static else .dynamic

/-- The body and its only shape. -/
def demoAdd (b : Nat) : List (Op ℚ) := [.attach b b, .addBody b, .addShape b]

/-- A step in which the shapes listed touch, everything is at rest and the callbacks accept. -/
def demoStep (dt : ℚ) (hits : List (Nat × Nat)) : Op ℚ :=
  .step { dt := dt, moving := fun _ => false, hits := hits.map fun p => ⟨p.1, p.2, 1, true, true, false, []⟩, lateWake := [] }

/-- The bodies 1 to 4 rest on the ground, 2 on 1. -/
def demoRest : List (Op ℚ) := demoAdd 0 ++ demoAdd 1 ++ demoAdd 2 ++ demoAdd 3 ++ demoAdd 4 ++ [.addJoint 1] ++ [demoStep (1/4) [(1, 0), (2, 1), (3, 0), (4, 0)]]

def demoHits : List (Nat × Nat) := [(1, 0), (2, 1), (3, 0), (4, 0)]

/-- They fall asleep: three groups. -/
def demoSleep : List (Op ℚ) := demoRest ++ [demoStep (1/4) demoHits, demoStep (1/4) demoHits, demoStep (1/4) demoHits]

theorem demo_good : Good demoNew := new_good _ _ _ _ _ _ (by decide) (by intro th h; simp at h; rw [← h]; decide)

theorem demo_agree : Agree demoNew demoList := new_agree _ _ _ _ _ _

theorem demo_allowed : Allowed demoNew demoSleep := okAll_allowed _ _ _ demo_good demo_agree (by decide +kernel)

end Sp
end Cm
