import Verif.Model.Inventory
import Verif.Props.Space
/-! # C132: what a space says it contains -/
set_option linter.unusedSectionVars false
set_option linter.unusedVariables false

namespace Cm
open Sp Spec
variable {K : Type} [Zero K] [LinearOrder K] [Add K]

/-- **C132.** `ContainsBody`, `ContainsShape` and `ContainsConstraint` tell what was added and not removed since, asleep or not. -/
theorem C132_contains {kind : Nat → Kind} {ops : List (Op K)} {s : St K} (h : ReachedBy kind ops s) :
    (∀ b, containsBody s b = ((emptyList kind).after ops).bodies b) ∧ (∀ x, containsShape s x = ((emptyList kind).after ops).shapes x) ∧
    (∀ c, containsConstraint s c = ((emptyList kind).after ops).joints c) := by
  obtain ⟨G, A, _⟩ := h.all
  exact ⟨A.bodies, A.shapes, A.joints⟩

/-- Lists without repetition of what is said to be contained. -/
theorem count_unique {l l' : List Nat} (hn : l.Nodup) (hn' : l'.Nodup) (h : ∀ b, b ∈ l ↔ b ∈ l') : l.length = l'.length :=
  ((List.perm_ext_iff_of_nodup hn hn').2 h).length_eq

/-- **C132.** `StaticBodyCount` is the number of the static bodies added and not removed. -/
theorem C132_static {kind : Nat → Kind} {ops : List (Op K)} {s : St K} (h : ReachedBy kind ops s) (l : List Nat) (hl : l.Nodup)
    (hm : ∀ b, b ∈ l ↔ (((emptyList kind).after ops).bodies b = true ∧ ((emptyList kind).after ops).kinds b = .static)) : staticBodyCount s = l.length := by
  obtain ⟨G, A, _⟩ := h.all
  refine count_unique G.inv.blists.statN hl fun b => ?_
  rw [hm, G.inv.blists.stat, A.bodies, A.kinds]

/-- **C132, partial.** `DynamicBodyCount` is the number of the bodies that are dynamic or kinematic and awake. The full statement, as the comment of the
function has it: the number of dynamic bodies. It leaves out those asleep and counts the kinematic ones. -/
theorem C132_dynamic_partial {kind : Nat → Kind} {ops : List (Op K)} {s : St K} (h : ReachedBy kind ops s) (l : List Nat) (hl : l.Nodup)
    (hm : ∀ b, b ∈ l ↔ (((emptyList kind).after ops).bodies b = true ∧ ((emptyList kind).after ops).kinds b ≠ .static ∧ ¬ asleep s b)) : dynamicBodyCount s = l.length := by
  obtain ⟨G, A, _⟩ := h.all
  refine count_unique G.inv.blists.dynN hl fun b => ?_
  rw [hm, G.inv.blists.dyn, A.bodies, A.kinds, off_nil]
  rfl

/-- **C132.** Static, awake and sleeping bodies together are all the bodies. -/
theorem C132_total {kind : Nat → Kind} {ops : List (Op K)} {s : St K} (h : ReachedBy kind ops s) (l z : List Nat) (hl : l.Nodup) (hz : z.Nodup)
    (hm : ∀ b, b ∈ l ↔ ((emptyList kind).after ops).bodies b = true) (hs : ∀ b, b ∈ z ↔ asleep s b) : dynamicBodyCount s + staticBodyCount s + z.length = l.length := by
  obtain ⟨G, A, _⟩ := h.all
  have B := G.inv.blists
  have hn : (s.dyn ++ s.stat ++ z).Nodup := by
    refine List.nodup_append.2 ⟨List.nodup_append.2 ⟨B.dynN, B.statN, ?_⟩, hz, ?_⟩
    · rintro a ha b hb rfl
      exact ((B.dyn a).1 ha).2.1 ((B.stat a).1 hb).2
    · rintro a ha b hb rfl
      rw [hs] at hb
      rcases List.mem_append.1 ha with h1 | h1
      · exact ((B.dyn a).1 h1).2.2 (off_nil.2 hb)
      · obtain ⟨r, hr⟩ := Option.ne_none_iff_exists'.1 hb
        have := (G.inv.groups.root a r (by simp) hr).2.1
        rw [((B.stat a).1 h1).2] at this
        cases this
  have := count_unique hn hl fun b => by
    rw [hm, List.mem_append, List.mem_append, B.dyn, B.stat, hs, off_nil, ← A.bodies]
    constructor
    · rintro ((h | h) | h)
      · exact h.1
      · exact h.1
      · obtain ⟨r, hr⟩ := Option.ne_none_iff_exists'.1 h
        exact (G.inv.groups.root b r (by simp) hr).2.2
    · intro h
      by_cases h1 : (s.bd b).root = none
      · by_cases h2 : (s.bd b).kind = .static
        · exact Or.inl (Or.inr ⟨h, h2⟩)
        · exact Or.inl (Or.inl ⟨h, h2, by simpa using h1⟩)
      · exact Or.inr h1
  simp only [List.length_append] at this
  exact this

/-- **C132, the full statement fails.** There are four dynamic bodies in the space, and `DynamicBodyCount` is 0: they sleep. -/
theorem C132_asleep_uncounted : ReachedBy demoKind demoSleep demoEnd ∧ (∀ b ∈ [1, 2, 3, 4], containsBody demoEnd b = true ∧ ((emptyList demoKind).after demoSleep).kinds b = .dynamic) ∧
    dynamicBodyCount demoEnd = 0 := ⟨demo_reached, by decide +kernel, by decide +kernel⟩

/-- A kinematic body. -/
def guideNew : St ℚ := new 1 (fun _ => .kinematic) (fun _ => (0, 0)) (fun _ => false) 3 none

/-- **C132, the full statement fails.** There is no dynamic body in the space, and `DynamicBodyCount` is 1. -/
theorem C132_kinematic_counted : ∃ s : St ℚ, ReachedBy (fun _ => .kinematic) [.addBody 0] s ∧ (∀ b, ((emptyList fun _ => Kind.kinematic).after [Op.addBody (K := ℚ) 0]).kinds b ≠ .dynamic) ∧
    dynamicBodyCount s = 1 := by
  have g : Good guideNew := new_good _ _ _ _ _ _ (by decide) (by intro th h; cases h)
  have a : Agree guideNew (emptyList fun _ => .kinematic) := new_agree _ _ _ _ _ _
  obtain ⟨s, e, r⟩ := C78_never_fails (K := ℚ) 1 (fun _ => .kinematic) (fun _ => (0, 0)) (fun _ => false) 3 none (by decide) (by intro th h; cases h) [.addBody 0]
    (okAll_allowed _ _ _ g a (by decide +kernel))
  refine ⟨s, r, fun b hb => ?_, ?_⟩
  · cases hb
  · have : (runAll guideNew [.addBody 0]).map dynamicBodyCount = some 1 := by decide +kernel
    rw [show runAll guideNew [.addBody 0] = some s from e] at this
    simpa using this

/-- The example: one static body, four asleep. -/
example : dynamicBodyCount demoEnd + staticBodyCount demoEnd + [1, 2, 3, 4].length = 5 ∧ staticBodyCount demoEnd = 1 ∧ containsShape demoEnd 3 = true ∧ containsConstraint demoEnd 1 = true ∧
    containsConstraint demoEnd 0 = false := by decide +kernel

end Cm
