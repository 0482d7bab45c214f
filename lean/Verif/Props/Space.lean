import Verif.Proofs.SpaceConn
import Verif.Proofs.SpaceCheck

/-!
# C22–C26, C69, C77, C78: what is in a space, and what sleeps

`ReachedBy kind ops s`: `s` is the state of a space after the calls `ops`, each of them allowed when it was made. The
reference `(emptyList kind).after ops` says what should be in the space from the calls alone.
-/

set_option linter.unusedSectionVars false
set_option linter.unusedSimpArgs false
set_option linter.unusedVariables false

namespace Cm
open Sp Spec

variable {K : Type} [Zero K] [LT K] [DecidableRel (α := K) (· < ·)] [Add K] [DecidableEq K]

/-! ### Specification -/

/-- `s` is the state of a space after the calls, each allowed when made. -/
def Spec.ReachedBy (kind : Nat → Kind) (ops : List (Op K)) (s : St K) : Prop :=
  ∃ nb ends sensor persistence threshold, 1 ≤ persistence ∧ (∀ th : K, threshold = some th → (0 : K) < th) ∧
    Allowed (new nb kind ends sensor persistence threshold) ops ∧ runAll (new nb kind ends sensor persistence threshold) ops = some s

/-- The body is asleep: body.go:431-433. -/
def Spec.asleep (s : St K) (b : Nat) : Prop := (s.bd b).root ≠ none

/-- The bodies are asleep in one group. -/
def Spec.sameGroup (s : St K) (b c : Nat) : Prop := asleep s b ∧ (s.bd c).root = (s.bd b).root

theorem Spec.ReachedBy.all {kind : Nat → Kind} {ops : List (Op K)} {s : St K} (h : ReachedBy kind ops s) :
    Good s ∧ Agree s ((emptyList kind).after ops) ∧ Joined s := by
  obtain ⟨nb, ends, sensor, p, t, hp, ht, ha, e⟩ := h
  have G := new_good nb kind ends sensor p t hp ht
  have A : Agree (new nb kind ends sensor p t) (emptyList kind) := new_agree nb kind ends sensor p t
  obtain ⟨s', e', G', A'⟩ := runAll_good ops _ _ G A ha
  rw [e, Option.some.injEq] at e'
  subst e'
  exact ⟨G', A', runAll_joined ops _ _ _ G A (new_joined nb kind ends sensor p t) ha e⟩

/-- The reference before the call, after it. -/
theorem Spec.Listed.after_append (L : Listed) (l : List (Op K)) (o : Op K) : L.after (l ++ [o]) = (L.after l).next o := by
  induction l generalizing L with
  | nil => rfl
  | cons a l ih => exact ih (L.next a)

theorem runAll_append (l : List (Op K)) (o : Op K) : ∀ s : St K, runAll s (l ++ [o]) = match runAll s l with | none => none | some s1 => o.run s1 := by
  induction l with
  | nil => intro s; simp only [List.nil_append, runAll]; cases o.run s <;> rfl
  | cons a l ih => intro s; simp only [List.cons_append, runAll]; cases a.run s with
    | none => rfl
    | some s1 => exact ih s1

theorem allowed_append (l : List (Op K)) (o : Op K) : ∀ s : St K, Allowed s (l ++ [o]) ↔ (Allowed s l ∧ ∀ s1, runAll s l = some s1 → o.Allowed s1) := by
  induction l with
  | nil => intro s; simp [Allowed, runAll]
  | cons a l ih =>
    intro s
    simp only [List.cons_append, Allowed, runAll]
    constructor
    · rintro ⟨h1, h2⟩
      refine ⟨⟨h1, fun s' e => ((ih s').1 (h2 s' e)).1⟩, fun s1 e => ?_⟩
      cases ha : a.run s with
      | none => rw [ha] at e; cases e
      | some s' => rw [ha] at e; exact ((ih s').1 (h2 s' ha)).2 s1 e
    · rintro ⟨⟨h1, h2⟩, h3⟩
      refine ⟨h1, fun s' e => (ih s').2 ⟨h2 s' e, fun s1 e1 => h3 s1 ?_⟩⟩
      rw [e]; exact e1

/-- One more allowed call. -/
theorem Spec.ReachedBy.more {kind : Nat → Kind} {ops : List (Op K)} {s s' : St K} {o : Op K} (h : ReachedBy kind ops s) (ho : o.Allowed s)
    (e : o.run s = some s') : ReachedBy kind (ops ++ [o]) s' := by
  obtain ⟨nb, ends, sensor, p, t, hp, ht, ha, e0⟩ := h
  refine ⟨nb, ends, sensor, p, t, hp, ht, (allowed_append ops o _).2 ⟨ha, fun s1 e1 => ?_⟩, ?_⟩
  · rw [e0, Option.some.injEq] at e1; rw [← e1]; exact ho
  · rw [runAll_append, e0]; exact e

/-! ### C78: allowed calls never fail -/

/-- No allowed sequence of calls reaches a panic, a fatal error, a nil dereference or an endless loop. -/
theorem C78_never_fails (nb : Nat) (kind : Nat → Kind) (ends : Nat → Nat × Nat) (sensor : Nat → Bool) (persistence : Nat) (threshold : Option K)
    (hp : 1 ≤ persistence) (ht : ∀ th : K, threshold = some th → (0 : K) < th) (ops : List (Op K))
    (h : Allowed (new nb kind ends sensor persistence threshold) ops) : ∃ s, runAll (new nb kind ends sensor persistence threshold) ops = some s ∧ ReachedBy kind ops s := by
  obtain ⟨s, e, _⟩ := runAll_good ops _ _ (new_good nb kind ends sensor persistence threshold hp ht) (new_agree _ _ _ _ _ _) h
  exact ⟨s, e, nb, ends, sensor, persistence, threshold, hp, ht, h, e⟩

/-- The state in which the bodies of the example sleep. -/
def demoEnd : St ℚ := (runAll demoNew demoSleep).get (by decide +kernel)

theorem demoEnd_eq : runAll demoNew demoSleep = some demoEnd := by simp [demoEnd]

def demoKind (b : Nat) : Kind := if b = 0 then .static else .dynamic

theorem demo_reached : ReachedBy demoKind demoSleep demoEnd :=
  ⟨7, _, _, 3, some 1, by decide, by intro th h; simp at h; rw [← h]; decide, demo_allowed, demoEnd_eq⟩

example : ∃ s, runAll demoNew demoSleep = some s ∧ ReachedBy demoKind demoSleep s :=
  C78_never_fails 7 demoKind (fun c => if c = 0 then (1, 2) else (0, 3)) (fun _ => false) 3 (some 1) (by decide)
    (by intro th h; simp at h; rw [← h]; decide) demoSleep demo_allowed

/-! ### C22: bodies are enumerated once -/

theorem eachAsleep_ok {s : St K} (G : Good s) : ∀ l : List Nat, l.Nodup → (∀ r ∈ l, r ∈ s.sleeping) →
    ∃ m, eachAsleep s l = some m ∧ m.Nodup ∧ ∀ b, b ∈ m ↔ ∃ r ∈ l, (s.bd b).root = some r
  | [], _, _ => ⟨[], rfl, List.nodup_nil, by simp⟩
  | r :: l, hn, h => by
    have hn' := List.nodup_cons.1 hn
    obtain ⟨k, e2, n2, m2⟩ := eachAsleep_ok G l hn'.2 (fun q hq => h q (by simp [hq]))
    obtain ⟨_, p, hp, hpn, hm, hlen, _⟩ := G.inv.groupList (by simp) (G.member (h r (by simp))).1
    refine ⟨p ++ k, ?_, ?_, ?_⟩
    · simp only [eachAsleep, chain_eq s (s.nb + 1) (some r) p hp (by omega), e2]
    · refine List.nodup_append.2 ⟨hpn, n2, ?_⟩
      rintro a ha b hb rfl
      obtain ⟨q, hq, hqr⟩ := (m2 a).1 hb
      have := ((hm a).1 ha).2
      rw [this, Option.some.injEq] at hqr
      rw [hqr] at hn'
      exact hn'.1 hq
    · intro b
      rw [List.mem_append, hm, m2]
      simp

theorem eachAsleep_sleeping {s : St K} (G : Good s) : ∃ m, eachAsleep s s.sleeping = some m ∧ m.Nodup ∧ ∀ b, b ∈ m ↔ (s.bd b).root ≠ none := by
  obtain ⟨m, e, n, h⟩ := eachAsleep_ok G s.sleeping G.inv.groups.nodup (fun _ h => h)
  refine ⟨m, e, n, fun b => ?_⟩
  rw [h]
  constructor
  · rintro ⟨r, _, hr⟩; rw [hr]; simp
  · intro hb
    obtain ⟨r, hr⟩ := Option.ne_none_iff_exists'.1 hb
    exact ⟨r, (G.inv.groups.root b r (by simp) hr).1, hr⟩

/-- `EachBody` visits each body that was added and not removed since, exactly once. -/
theorem C22_eachBody {kind : Nat → Kind} {ops : List (Op K)} {s : St K} (h : ReachedBy kind ops s) :
    ∃ l, eachBody s = some l ∧ l.Nodup ∧ ∀ b, b ∈ l ↔ ((emptyList kind).after ops).bodies b = true := by
  obtain ⟨G, A, _⟩ := h.all
  obtain ⟨m, e, n, hm⟩ := eachAsleep_sleeping G
  have B := G.inv.blists
  refine ⟨s.dyn ++ s.stat ++ m, by simp only [eachBody, e], ?_, ?_⟩
  · refine List.nodup_append.2 ⟨List.nodup_append.2 ⟨B.dynN, B.statN, ?_⟩, n, ?_⟩
    · rintro a ha b hb rfl
      exact ((B.dyn a).1 ha).2.1 ((B.stat a).1 hb).2
    · rintro a ha b hb rfl
      have hr := (hm a).1 hb
      rcases List.mem_append.1 ha with ha | ha
      · exact ((B.dyn a).1 ha).2.2 (off_nil.2 hr)
      · exact hr (G.inv.static_root (by rw [((B.stat a).1 ha).2]; simp))
  · intro b
    rw [← A.bodies, List.mem_append, List.mem_append, B.dyn, B.stat, hm, off_nil]
    constructor
    · rintro ((h | h) | h)
      · exact h.1
      · exact h.1
      · obtain ⟨r, hr⟩ := Option.ne_none_iff_exists'.1 h
        exact (G.inv.groups.root b r (by simp) hr).2.2
    · intro h
      by_cases h1 : (s.bd b).root = none
      · by_cases h2 : (s.bd b).kind = .static
        · exact Or.inl (Or.inr ⟨h, h2⟩)
        · exact Or.inl (Or.inl ⟨h, h2, by simpa using h1⟩)
      · exact Or.inr h1

/-- `EachDynamicBody` visits those whose type is not static. -/
theorem C22_eachDynamicBody {kind : Nat → Kind} {ops : List (Op K)} {s : St K} (h : ReachedBy kind ops s) :
    ∃ l, eachDynamicBody s = some l ∧ l.Nodup ∧
      ∀ b, b ∈ l ↔ (((emptyList kind).after ops).bodies b = true ∧ ((emptyList kind).after ops).kinds b ≠ .static) := by
  obtain ⟨G, A, _⟩ := h.all
  obtain ⟨m, e, n, hm⟩ := eachAsleep_sleeping G
  have B := G.inv.blists
  refine ⟨s.dyn ++ m, by simp only [eachDynamicBody, e], ?_, ?_⟩
  · refine List.nodup_append.2 ⟨B.dynN, n, ?_⟩
    rintro a ha b hb rfl
    exact ((B.dyn a).1 ha).2.2 (off_nil.2 ((hm a).1 hb))
  · intro b
    rw [← A.bodies, ← A.kinds, List.mem_append, B.dyn, hm, off_nil]
    constructor
    · rintro (h | h)
      · exact ⟨h.1, h.2.1⟩
      · obtain ⟨r, hr⟩ := Option.ne_none_iff_exists'.1 h
        obtain ⟨_, h2, h3⟩ := G.inv.groups.root b r (by simp) hr
        exact ⟨h3, by rw [h2]; simp⟩
    · rintro ⟨h, h2⟩
      by_cases h1 : (s.bd b).root = none
      · exact Or.inl ⟨h, h2, by simpa using h1⟩
      · exact Or.inr h1

/-- `EachStaticBody` visits those whose type is static. -/
theorem C22_eachStaticBody {kind : Nat → Kind} {ops : List (Op K)} {s : St K} (h : ReachedBy kind ops s) :
    (eachStaticBody s).Nodup ∧
      ∀ b, b ∈ eachStaticBody s ↔ (((emptyList kind).after ops).bodies b = true ∧ ((emptyList kind).after ops).kinds b = .static) := by
  obtain ⟨G, A, _⟩ := h.all
  refine ⟨G.inv.blists.statN, fun b => ?_⟩
  rw [← A.bodies, ← A.kinds]
  exact G.inv.blists.stat b

/-- The groups asleep in the example are {1, 2}, {3} and {4}. -/
example : demoEnd.sleeping = [1, 3, 4] ∧ eachBody demoEnd = some [0, 1, 2, 3, 4] ∧ (∃ l, eachBody demoEnd = some l ∧ l.Nodup) :=
  ⟨by decide +kernel, by decide +kernel, let ⟨l, e, n, _⟩ := C22_eachBody demo_reached; ⟨l, e, n⟩⟩

/-! ### C23: shapes are in exactly one index -/

/-- A shape is in the static index exactly if it was added and not removed and its body is static or asleep, in the
dynamic index exactly if it was added and not removed and its body is neither. -/
theorem C23_index {kind : Nat → Kind} {ops : List (Op K)} {s : St K} (h : ReachedBy kind ops s) (x : Nat) :
    (x ∈ s.statIdx ↔ (((emptyList kind).after ops).shapes x = true ∧
      ∃ b, ((emptyList kind).after ops).home x = some b ∧ (((emptyList kind).after ops).kinds b = .static ∨ asleep s b))) ∧
    (x ∈ s.dynIdx ↔ (((emptyList kind).after ops).shapes x = true ∧
      ∃ b, ((emptyList kind).after ops).home x = some b ∧ ¬ (((emptyList kind).after ops).kinds b = .static ∨ asleep s b))) := by
  obtain ⟨G, A, _⟩ := h.all
  have S := G.inv.shapes
  have key : ∀ p : Nat → Prop, ((s.sh x).space = true ∧ p (s.sh x).body) ↔
      ((s.sh x).space = true ∧ ∃ b, ((emptyList kind).after ops).home x = some b ∧ p b) := by
    intro p
    constructor
    · rintro ⟨h1, h2⟩; exact ⟨h1, _, (A.home x _).1 (S.own x h1), h2⟩
    · rintro ⟨h1, b, h2, h3⟩
      have := S.att b x ((A.home x b).2 h2)
      rw [this]; exact ⟨h1, h3⟩
  rw [S.stat, S.dyn, ← A.shapes]
  refine ⟨(key (fun b => frozen s [] b)).trans ?_, (key (fun b => ¬ frozen s [] b)).trans ?_⟩ <;>
  simp only [frozen, off_nil, A.kinds, asleep]

/-- Each index holds a shape at most once, no shape is in both. -/
theorem C23_once {kind : Nat → Kind} {ops : List (Op K)} {s : St K} (h : ReachedBy kind ops s) : (eachShape s).Nodup := by
  obtain ⟨G, A, _⟩ := h.all
  have S := G.inv.shapes
  refine List.nodup_append.2 ⟨S.dynN, S.statN, ?_⟩
  rintro a ha b hb rfl
  exact ((S.dyn a).1 ha).2 ((S.stat a).1 hb).2

/-- `EachShape` visits each shape that was added and not removed. -/
theorem C23_eachShape {kind : Nat → Kind} {ops : List (Op K)} {s : St K} (h : ReachedBy kind ops s) (x : Nat) :
    x ∈ eachShape s ↔ ((emptyList kind).after ops).shapes x = true := by
  obtain ⟨G, A, _⟩ := h.all
  have S := G.inv.shapes
  rw [eachShape, List.mem_append, S.dyn, S.stat, ← A.shapes]
  by_cases hf : frozen s [] (s.sh x).body <;> simp [hf]

/-- `ShapeCount` is the number of shapes added and not removed. -/
theorem C23_count {kind : Nat → Kind} {ops : List (Op K)} {s : St K} (h : ReachedBy kind ops s) (l : List Nat) (hl : l.Nodup)
    (hm : ∀ x, x ∈ l ↔ ((emptyList kind).after ops).shapes x = true) : shapeCount s = l.length := by
  have : (eachShape s).Perm l := (List.perm_ext_iff_of_nodup (C23_once h) hl).2 fun x => by rw [C23_eachShape h, hm]
  rw [← this.length_eq]
  simp only [shapeCount, eachShape, List.length_append]; omega

example : shapeCount demoEnd = 5 := C23_count demo_reached [0, 1, 2, 3, 4] (by decide) (by
  intro x
  constructor
  · intro h; simp at h; rcases h with rfl | rfl | rfl | rfl | rfl <;> decide +kernel
  · intro h
    rcases x with _ | _ | _ | _ | _ | x
    all_goals (first | (simp; done) | skip)
    exfalso; revert h
    simp [Spec.Listed.after, Spec.Listed.next, emptyList, demoSleep, demoRest, demoAdd, demoStep])


/-! ### C77: joints are enumerated once -/

/-- `EachConstraint` visits each joint that was added and not removed and whose bodies are awake, exactly once. -/
theorem C77_eachConstraint_partial {kind : Nat → Kind} {ops : List (Op K)} {s : St K} (h : ReachedBy kind ops s) :
    (eachConstraint s).Nodup ∧ ∀ c, c ∈ eachConstraint s ↔
      (((emptyList kind).after ops).joints c = true ∧ ¬ asleep s (s.cn c).a ∧ ¬ asleep s (s.cn c).b) := by
  obtain ⟨G, A, _⟩ := h.all
  have J := G.inv.joints
  refine ⟨J.nodup, fun c => ?_⟩
  rw [eachConstraint, J.mem, ← A.joints]
  constructor
  · rintro ⟨h1, h2⟩
    obtain ⟨g1, g2⟩ := J.group c h1
    obtain ⟨a1, a2⟩ := awake_both G.inv g1 g2 h2
    exact ⟨h1, by simpa [asleep] using a1, by simpa [asleep] using a2⟩
  · rintro ⟨h1, h2, h3⟩
    refine ⟨h1, ?_⟩
    rw [off_nil]
    unfold owner
    split
    · exact h3
    · exact h2

/-- A joint of a sleeping body is in the space and not visited. -/
theorem C77_asleep_skipped : ReachedBy demoKind demoSleep demoEnd ∧ ((emptyList demoKind).after demoSleep).joints 1 = true ∧ 1 ∉ eachConstraint demoEnd :=
  ⟨demo_reached, by decide +kernel, by decide +kernel⟩

/-! ### C69: the links of the sleeping groups -/

/-- Every group asleep is listed once by one of its members; following the links from it gives each of its members
exactly once; and a body is asleep exactly if it is a member of a listed group. -/
theorem C69_groups {kind : Nat → Kind} {ops : List (Op K)} {s : St K} (h : ReachedBy kind ops s) :
    s.sleeping.Nodup ∧
    (∀ r ∈ s.sleeping, ∃ l, chain s (s.nb + 1) (some r) = some l ∧ l.Nodup ∧ r ∈ l ∧ ∀ c, c ∈ l ↔ sameGroup s r c) ∧
    (∀ b, asleep s b ↔ ∃ r ∈ s.sleeping, ∃ l, chain s (s.nb + 1) (some r) = some l ∧ b ∈ l) := by
  obtain ⟨G, A, _⟩ := h.all
  have key : ∀ r ∈ s.sleeping, ∃ l, chain s (s.nb + 1) (some r) = some l ∧ l.Nodup ∧ r ∈ l ∧ ∀ c, c ∈ l ↔ sameGroup s r c := by
    intro r hr
    have hrr := (G.member hr).1
    obtain ⟨_, p, hp, hpn, hm, hlen, _⟩ := G.inv.groupList (by simp) hrr
    refine ⟨p, chain_eq s (s.nb + 1) (some r) p hp (by omega), hpn, (hm r).2 ⟨by simp, hrr⟩, fun c => ?_⟩
    rw [hm, sameGroup, asleep, hrr]; simp
  refine ⟨G.inv.groups.nodup, key, fun b => ?_⟩
  constructor
  · intro hb
    obtain ⟨r, hr⟩ := Option.ne_none_iff_exists'.1 hb
    have hrs := (G.inv.groups.root b r (by simp) hr).1
    obtain ⟨l, h1, _, _, h4⟩ := key r hrs
    refine ⟨r, hrs, l, h1, (h4 b).2 ?_⟩
    have := (G.member hrs).1
    exact ⟨by rw [asleep, this]; simp, by rw [this, hr]⟩
  · rintro ⟨r, hrs, l, h1, h2⟩
    obtain ⟨l', h1', _, _, h4⟩ := key r hrs
    rw [h1, Option.some.injEq] at h1'
    subst h1'
    obtain ⟨k1, k2⟩ := (h4 b).1 h2
    rw [asleep, k2]; exact k1

example : chain demoEnd 8 (some 1) = some [1, 2] := by decide +kernel

/-! ### C24: waking a body wakes its group -/

/-- `Activate` on a body of a space. -/
theorem C24_activate {kind : Nat → Kind} {ops : List (Op K)} {s : St K} (h : ReachedBy kind ops s) (b : Nat) :
    ∃ s', activate s b = some s' ∧
      -- exactly the members of the group wake
      (∀ c, asleep s' c ↔ (asleep s c ∧ ¬ sameGroup s b c)) ∧ (∀ c, asleep s' c → (s'.bd c).root = (s.bd c).root) ∧
      -- their idle times are reset
      (∀ c, sameGroup s b c → (s'.bd c).idle = 0) ∧
      -- the members are back in the list of awake bodies, once
      (s'.dyn.Nodup ∧ ∀ c, c ∈ s'.dyn ↔ (c ∈ s.dyn ∨ sameGroup s b c)) ∧
      -- their shapes are back in the dynamic index, once
      (s'.dynIdx.Nodup ∧ ∀ x, x ∈ s'.dynIdx ↔ (x ∈ s.dynIdx ∨ ((s.sh x).space = true ∧ sameGroup s b (s.sh x).body))) ∧
      -- their joints are back in the list of active joints, once
      (s'.cons.Nodup ∧ ∀ j, j ∈ s'.cons ↔ (j ∈ s.cons ∨ ((s.cn j).space = true ∧ (sameGroup s b (s.cn j).a ∨ sameGroup s b (s.cn j).b)))) ∧
      -- their contacts are back in the list of active contacts and among the cached ones, once
      (s'.arbiters.Nodup ∧ ∀ r, r ∈ s'.arbiters ↔ (r ∈ s.arbiters ∨ (thr s r ∧ (sameGroup s b (s.ar r).a ∨ sameGroup s b (s.ar r).b)))) ∧
      (s'.cached.Nodup ∧ ∀ r, thr s r → (r ∈ s'.cached ↔ (r ∈ s.cached ∨ sameGroup s b (s.ar r).a ∨ sameGroup s b (s.ar r).b))) := by
  obtain ⟨G, A, _⟩ := h.all
  obtain ⟨s', e, H', w⟩ := activate_ok G.ok b
  have G' := G.woken H' w
  have I := G.inv
  have I' := G'.inv
  have q := w.quiet
  have hdyn : asleep s b → (s.bd b).kind = .dynamic := by
    intro hb
    obtain ⟨r, hr⟩ := Option.ne_none_iff_exists'.1 hb
    exact (I.groups.root b r (by simp) hr).2.1
  have hroot : ∀ c, (s'.bd c).root ≠ none ↔ ((s.bd c).root ≠ none ∧ ¬ sameGroup s b c) := by
    intro c
    rw [w.root]
    by_cases hg : sameGroup s b c
    · rw [if_pos ⟨hdyn hg.1, hg.1, hg.2⟩]; simp [hg]
    · rw [if_neg (fun k => hg ⟨k.2.1, k.2.2⟩)]; simp [hg]
  have hgk : ∀ c, sameGroup s b c → (s.bd c).root ≠ none ∧ (s.bd c).kind = .dynamic ∧ (s.bd c).space = true := by
    intro c hc
    have h1 : (s.bd c).root ≠ none := by rw [hc.2]; exact hc.1
    obtain ⟨r, hr⟩ := Option.ne_none_iff_exists'.1 h1
    obtain ⟨_, h2, h3⟩ := I.groups.root c r (by simp) hr
    exact ⟨h1, h2, h3⟩
  have hk := fun c => (q.bd c).1
  -- of two bodies asleep together
  have hown : ∀ a c, Together s [] a c → Together s [] c a → ((s.bd a).kind = .static ∨ (s.bd a).kind ≠ .static) →
      (¬ off s' [] (owner s' a c) ↔ (¬ off s [] (owner s a c) ∨ sameGroup s b a ∨ sameGroup s b c)) := by
    intro a c g1 g2 _
    have eo : owner s' a c = owner s a c := by unfold owner; rw [hk]
    rw [eo, off_nil, off_nil, hroot]
    have hkey : (sameGroup s b a ∨ sameGroup s b c) → sameGroup s b (owner s a c) := by
      unfold owner
      intro hh
      split
      · rename_i hs
        rcases hh with hh | hh
        · rw [(hgk a hh).2.1] at hs; cases hs
        · exact hh
      · rename_i hs
        rcases hh with hh | hh
        · exact hh
        · obtain ⟨g, hg⟩ := Option.ne_none_iff_exists'.1 (hgk c hh).1
          rcases g2 g (by simp) hg with k | k
          · exact absurd k hs
          · exact ⟨hh.1, by rw [k.2, ← hg]; exact hh.2⟩
    have hkey' : sameGroup s b (owner s a c) → (sameGroup s b a ∨ sameGroup s b c) := by
      unfold owner; split
      · exact Or.inr
      · exact Or.inl
    constructor
    · intro k
      by_cases h1 : (s.bd (owner s a c)).root = none
      · left; simpa using h1
      · right; apply hkey'; by_contra h2; exact k ⟨h1, h2⟩
    · rintro (k | k) ⟨h1, h2⟩
      · exact k h1
      · exact h2 (hkey k)
  refine ⟨s', e, hroot, ?_, ?_, ⟨I'.blists.dynN, ?_⟩, ⟨I'.shapes.dynN, ?_⟩, ⟨I'.joints.nodup, ?_⟩, ⟨I'.arbs.arbN, ?_⟩, ⟨I'.arbs.cachedN, ?_⟩⟩
  · intro c hc
    rcases w.all.root c with k | k
    · exact absurd k hc
    · exact k
  · intro c hc; exact w.idleG c (hdyn hc.1) hc.1 hc.2
  · intro c
    rw [I'.blists.dyn, I.blists.dyn, (q.bd c).2.2.2.2, hk, off_nil, off_nil, hroot]
    constructor
    · rintro ⟨h1, h2, h3⟩
      by_cases hr : (s.bd c).root = none
      · left; exact ⟨h1, h2, by simpa using hr⟩
      · right; by_contra hg; exact h3 ⟨hr, hg⟩
    · rintro (⟨h1, h2, h3⟩ | hg)
      · exact ⟨h1, h2, fun k => h3 k.1⟩
      · obtain ⟨_, h2, h3⟩ := hgk c hg
        exact ⟨h3, by rw [h2]; simp, fun k => k.2 hg⟩
  · intro x
    rw [I'.shapes.dyn, I.shapes.dyn, q.sh]
    unfold frozen
    rw [hk, off_nil, off_nil, hroot]
    constructor
    · rintro ⟨h1, h2⟩
      by_cases hg : sameGroup s b (s.sh x).body
      · exact Or.inr ⟨h1, hg⟩
      · left; exact ⟨h1, fun k => h2 (k.imp id fun k => ⟨k, hg⟩)⟩
    · rintro (⟨h1, h2⟩ | ⟨h1, hg⟩)
      · exact ⟨h1, fun k => h2 (k.imp id fun k => k.1)⟩
      · refine ⟨h1, ?_⟩
        rintro (k | k)
        · rw [(hgk _ hg).2.1] at k; cases k
        · exact k.2 hg
  · intro j
    rw [I'.joints.mem, I.joints.mem, q.cn]
    constructor
    · rintro ⟨h1, h2⟩
      obtain ⟨g1, g2⟩ := I.joints.group j h1
      rcases (hown _ _ g1 g2 (Decidable.em _)).1 h2 with k | k
      · exact Or.inl ⟨h1, k⟩
      · exact Or.inr ⟨h1, k⟩
    · rintro (⟨h1, h2⟩ | ⟨h1, h2⟩)
      all_goals
        obtain ⟨g1, g2⟩ := I.joints.group j h1
      · exact ⟨h1, (hown _ _ g1 g2 (Decidable.em _)).2 (Or.inl h2)⟩
      · exact ⟨h1, (hown _ _ g1 g2 (Decidable.em _)).2 (Or.inr h2)⟩
  · intro r
    rw [I'.arbs.arb, I.arbs.arb, q.thr, (q.ar r).2.2.1, (q.ar r).2.2.2.1]
    simp only [List.not_mem_nil, false_or]
    constructor
    · rintro ⟨h1, h2⟩
      obtain ⟨g1, g2⟩ := I.arbs.group r h1
      rcases (hown _ _ g1 g2 (Decidable.em _)).1 h2 with k | k
      · exact Or.inl ⟨h1, k⟩
      · exact Or.inr ⟨h1, k⟩
    · rintro (⟨h1, h2⟩ | ⟨h1, h2⟩)
      all_goals
        obtain ⟨g1, g2⟩ := I.arbs.group r h1
      · exact ⟨h1, (hown _ _ g1 g2 (Decidable.em _)).2 (Or.inl h2)⟩
      · exact ⟨h1, (hown _ _ g1 g2 (Decidable.em _)).2 (Or.inr h2)⟩
  · intro r h1
    rw [I'.arbs.cach r ((q.thr r).2 h1), I.arbs.cach r h1, (q.ar r).2.2.1, (q.ar r).2.2.2.1]
    obtain ⟨g1, g2⟩ := I.arbs.group r h1
    exact hown _ _ g1 g2 (Decidable.em _)

/-- Waking body 2 of the example wakes 1 and 2 and nothing else. -/
example : (activate demoEnd 2).map (fun s => (s.dyn, s.sleeping, s.arbiters.length, eachConstraint s)) = some ([1, 2], [3, 4], 2, []) := by decide +kernel


/-! ### C25: sleeping by component -/

/-- What links two bodies after a step: a collision solved in the step, a contact that a sleeping body had before it, or
a joint. -/
def Spec.LinkedAfter (s : St K) (inp : StepIn K) (b c : Nat) : Prop :=
  (∃ h ∈ inp.hits, solved s h ∧ Ends (s.sh h.x).body (s.sh h.y).body b c) ∨
  (∃ r, thr s r ∧ (asleep s (s.ar r).a ∨ asleep s (s.ar r).b) ∧ Ends (s.ar r).a (s.ar r).b b c) ∨
  (∃ j, (s.cn j).space = true ∧ Ends (s.cn j).a (s.cn j).b b c)

/-- Two bodies are connected through links between dynamic bodies. -/
def Spec.ConnectedAfter (s : St K) (inp : StepIn K) : Nat → Nat → Prop :=
  Relation.ReflTransGen fun b c => (s.bd b).kind = .dynamic ∧ (s.bd c).kind = .dynamic ∧ LinkedAfter s inp b c

theorem Sp.StepDone.link_iff {s m s' : St K} {inp : StepIn K} (G : Good s) (D : StepDone s m s' inp) (b c : Nat) : Adj s' b c ↔ LinkedAfter s inp b c := by
  have hoff : ∀ r, Sp.thr s r → (off s [] (owner s (s.ar r).a (s.ar r).b) ↔ (asleep s (s.ar r).a ∨ asleep s (s.ar r).b)) := by
    intro r hr
    obtain ⟨g1, g2⟩ := G.inv.arbs.group r hr
    constructor
    · intro h
      unfold owner at h
      rw [off_nil] at h
      split at h
      · exact Or.inr h
      · exact Or.inl h
    · intro h
      by_contra hn
      obtain ⟨a1, a2⟩ := awake_both G.inv g1 g2 hn
      rcases h with h | h
      · exact h a1
      · exact h a2
  have hhit : ∀ r (h : Hit), live m r → (m.ar r).sa = h.x → (m.ar r).sb = h.y → (m.ar r).a = (s.sh h.x).body ∧ (m.ar r).b = (s.sh h.y).body := by
    intro r h hl h1 h2
    obtain ⟨k1, k2, _⟩ := D.mid.arbs.shp r hl
    rw [k1, k2, h1, h2, D.midSh]; exact ⟨rfl, rfl⟩
  constructor
  · rintro (⟨r, hr, he⟩ | ⟨j, hj, he⟩)
    · rw [D.thr] at hr
      rw [(D.thrEnds r).1, (D.thrEnds r).2] at he
      rcases (D.linked r).1 hr with ⟨h1, h2⟩ | ⟨h, hh, h1, h2, h3, h4⟩
      · obtain ⟨e1, e2⟩ := D.ends r h1 h2
        rw [e1, e2] at he
        exact Or.inr (Or.inl ⟨r, h1, (hoff r h1).1 h2, he⟩)
      · obtain ⟨e1, e2⟩ := hhit r h h2 h3 h4
        rw [e1, e2] at he
        exact Or.inl ⟨h, hh, h1, he⟩
    · rw [D.cn] at hj he
      exact Or.inr (Or.inr ⟨j, hj, he⟩)
  · rintro (⟨h, hh, h1, he⟩ | ⟨r, h1, h2, he⟩ | ⟨j, hj, he⟩)
    · obtain ⟨r, hl, h3, h4⟩ := D.found h hh
      obtain ⟨e1, e2⟩ := hhit r h hl h3 h4
      refine Or.inl ⟨r, (D.thr r).2 ((D.linked r).2 (Or.inr ⟨h, hh, h1, hl, h3, h4⟩)), ?_⟩
      rw [(D.thrEnds r).1, (D.thrEnds r).2, e1, e2]; exact he
    · have h2' := (hoff r h1).2 h2
      obtain ⟨e1, e2⟩ := D.ends r h1 h2'
      refine Or.inl ⟨r, (D.thr r).2 ((D.linked r).2 (Or.inl ⟨h1, h2'⟩)), ?_⟩
      rw [(D.thrEnds r).1, (D.thrEnds r).2, e1, e2]; exact he
    · exact Or.inr ⟨j, by rw [D.cn]; exact hj, by rw [D.cn]; exact he⟩

theorem Sp.StepDone.conn_iff {s m s' : St K} {inp : StepIn K} (G : Good s) (D : StepDone s m s' inp) (b c : Nat) : Conn s' b c ↔ ConnectedAfter s inp b c := by
  have : Link s' = fun b c => (s.bd b).kind = .dynamic ∧ (s.bd c).kind = .dynamic ∧ LinkedAfter s inp b c := by
    funext b c
    rw [Link, (D.bd b).1, (D.bd c).1, D.link_iff G]
  rw [Conn, this]; rfl

/-- After a step: a dynamic body is asleep exactly if nothing connected to it has been idle for less than the threshold,
the groups asleep are exactly the connected components, and no other body is asleep. -/
theorem C25_components {kind : Nat → Kind} {ops : List (Op K)} {s : St K} (h : ReachedBy kind ops s) (inp : StepIn K) (ho : StepOk s inp)
    (th : K) (hth : s.threshold = some th) :
    ∃ s', step s inp = some s' ∧
      (∀ b, ((emptyList kind).after ops).bodies b = true → ((emptyList kind).after ops).kinds b = .dynamic →
        (asleep s' b ↔ ∀ c, ConnectedAfter s inp b c → ¬ (s'.bd c).idle < th)) ∧
      (∀ b, asleep s' b → ∀ c, sameGroup s' b c ↔ ConnectedAfter s inp b c) ∧
      (∀ b, asleep s' b → ((emptyList kind).after ops).kinds b = .dynamic) := by
  obtain ⟨G, A, J⟩ := h.all
  obtain ⟨s', m, e, G', D⟩ := step_ok G inp ho
  have J' : Joined s' := step_joined G G' J D
  have S := D.slept th hth
  have hth' : s'.threshold = some th := by rw [D.threshold]; exact hth
  have hpos := G.th th hth
  refine ⟨s', e, ?_, ?_, ?_⟩
  · intro b hb hk
    rw [← A.bodies] at hb
    rw [← A.kinds] at hk
    constructor
    · intro ha c hc
      rw [← D.conn_iff G] at hc
      have := Conn.group G'.inv hc ha
      exact J'.slow th hth' c (by rw [this]; exact ha)
    · intro hall ha
      have busy : ∃ c, Conn s' b c ∧ (s'.bd c).idle < th := by
        by_cases hm : (m.bd b).root = none
        · obtain ⟨c, h1, h2⟩ := S.awake b (by rw [(D.kinds b).1]; exact hk) (by rw [(D.kinds b).2]; exact hb) hm
          refine ⟨c, (D.conn b c).2 h1, ?_⟩
          rcases D.lateIdle c with k | k
          · rw [k]; exact hpos
          · rw [k]; exact h2
        · exact ⟨b, Relation.ReflTransGen.refl, by rw [D.lateFresh b hm ha]; exact hpos⟩
      obtain ⟨c, h1, h2⟩ := busy
      exact hall c ((D.conn_iff G b c).1 h1) h2
  · intro b ha c
    rw [← D.conn_iff G]
    constructor
    · rintro ⟨_, h2⟩; exact J'.conn b c ha h2
    · intro hc; exact ⟨ha, Conn.group G'.inv hc ha⟩
  · intro b ha
    obtain ⟨r, hr⟩ := Option.ne_none_iff_exists'.1 ha
    have := (G'.inv.groups.root b r (by simp) hr).2.1
    rw [(D.bd b).1, A.kinds] at this; exact this

/-- The idle time of a body still awake before the step is reset if it moves, and otherwise grows by the length of the
step, unless it is reset by being woken. -/
theorem C25_idle {kind : Nat → Kind} {ops : List (Op K)} {s : St K} (h : ReachedBy kind ops s) (inp : StepIn K) (ho : StepOk s inp)
    (th : K) (hth : s.threshold = some th) :
    ∃ s', step s inp = some s' ∧
      (∀ b, ¬ asleep s b → ((emptyList kind).after ops).bodies b = true → ((emptyList kind).after ops).kinds b = .dynamic →
        (s'.bd b).idle = 0 ∨ (inp.moving b = false ∧ ((s'.bd b).idle = 0 + inp.dt ∨ (s'.bd b).idle = (s.bd b).idle + inp.dt))) ∧
      (∀ b, asleep s' b → asleep s b → (s'.bd b).idle = (s.bd b).idle) := by
  obtain ⟨G, A, J⟩ := h.all
  obtain ⟨s', m, e, G', D⟩ := step_ok G inp ho
  refine ⟨s', e, ?_, ?_⟩
  · intro b hb hs hk
    rw [← A.bodies] at hs
    rw [← A.kinds] at hk
    rcases D.lateIdle b with k | k
    · exact Or.inl k
    · rw [k]
      rcases D.idle th hth b with k | ⟨i, hi, k⟩
      · exact Or.inl k
      · rw [k, if_pos ⟨(G.inv.blists.dyn b).2 ⟨hs, by rw [hk]; simp, by rw [off_nil]; exact hb⟩, hk⟩]
        by_cases hm : inp.moving b = true
        · rw [if_pos hm]; exact Or.inl rfl
        · rw [if_neg hm]
          refine Or.inr ⟨by simpa using hm, ?_⟩
          rcases hi with rfl | rfl
          · exact Or.inl rfl
          · exact Or.inr rfl
  · intro b hb hs
    rw [D.calm b hb]
    have hrb := (D.roots b).resolve_left hb
    have hbm : (m.bd b).root ≠ none := by rw [← hrb]; exact hb
    rcases (D.slept th hth).asleep b hbm with k | ⟨_, k⟩
    · exact k.2
    · -- it cannot have been in the group before and be in a new one
      obtain ⟨g, hg⟩ := Option.ne_none_iff_exists'.1 hs
      rcases D.idle th hth b with q | ⟨i, hi, q⟩
      · exfalso
        have J' : Joined s' := step_joined G G' J D
        apply J'.slow th (by rw [D.threshold]; exact hth) b hb
        rw [D.calm b hb, q]; exact G.th th hth
      · rw [q, if_neg]
        · rcases hi with rfl | rfl
          · exfalso
            have J' : Joined s' := step_joined G G' J D
            apply J'.slow th (by rw [D.threshold]; exact hth) b hb
            rw [D.calm b hb, q, if_neg]
            · exact G.th th hth
            · rintro ⟨hd, _⟩
              exact ((G.inv.blists.dyn b).1 hd).2.2 (off_nil.2 hs)
          · rfl
        · rintro ⟨hd, _⟩
          exact ((G.inv.blists.dyn b).1 hd).2.2 (off_nil.2 hs)

/-- The last step of the example, in which the three groups fall asleep. -/
example : (runAll demoNew (demoRest ++ [demoStep (1/4) demoHits, demoStep (1/4) demoHits])).map (·.sleeping) = some [] ∧
    (runAll demoNew (demoRest ++ [demoStep (1/4) demoHits, demoStep (1/4) demoHits, demoStep (1/4) demoHits])).map (·.sleeping) = some [1, 3, 4] ∧
    Allowed demoNew (demoRest ++ [demoStep (1/4) demoHits, demoStep (1/4) demoHits, demoStep (1/4) demoHits]) :=
  ⟨by decide +kernel, by decide +kernel, demo_allowed⟩

/-! ### C26: changing gravity -/

/-- What stays asleep when gravity changes: of the groups listed, every second one except the last. -/
theorem C26_setGravity {kind : Nat → Kind} {ops : List (Op K)} {s : St K} (h : ReachedBy kind ops s) :
    ∃ s', setGravity s = some s' ∧ ReachedBy kind (ops ++ [.gravity]) s' ∧
      s'.sleeping = (match s.sleeping.getLast? with | none => [] | some z => (seconds s.sleeping).erase z) := by
  obtain ⟨G, A, J⟩ := h.all
  obtain ⟨s', e, G', w, sl⟩ := setGravity_good G
  exact ⟨s', e, h.more trivial e, sl⟩

/-- Full statement: after `SetGravity` no body is asleep. It holds if at most two groups were asleep. -/
theorem C26_setGravity_partial {kind : Nat → Kind} {ops : List (Op K)} {s : St K} (h : ReachedBy kind ops s) (h2 : s.sleeping.length ≤ 2) :
    ∃ s', setGravity s = some s' ∧ ∀ b, ¬ asleep s' b := by
  obtain ⟨s', e, R, sl⟩ := C26_setGravity h
  refine ⟨s', e, fun b hb => ?_⟩
  have hnil : s'.sleeping = [] := by
    rw [sl]
    rcases hl : s.sleeping with _ | ⟨x, _ | ⟨y, _ | ⟨z, l⟩⟩⟩
    · simp
    · simp [seconds]
    · simp [seconds]
    · rw [hl] at h2; simp at h2
  obtain ⟨_, _, k⟩ := C69_groups R
  obtain ⟨r, hr, _⟩ := (k b).1 hb
  rw [hnil] at hr; cases hr

/-- With three groups asleep one of them stays asleep. -/
theorem C26_not_all_woken : ∃ s', ReachedBy demoKind demoSleep demoEnd ∧ setGravity demoEnd = some s' ∧ asleep s' 3 := by
  refine ⟨(setGravity demoEnd).get (by decide +kernel), demo_reached, by simp, ?_⟩
  show _ ≠ _
  decide +kernel

example : demoEnd.sleeping = [1, 3, 4] := by decide +kernel

end Cm
