import Verif.Proofs.SpaceArb
import Verif.Spec.Callbacks

/-! # The callbacks are in order -/
set_option linter.unusedSectionVars false
set_option linter.unusedSimpArgs false
set_option linter.unusedVariables false
set_option linter.unusedTactic false
set_option linter.unreachableTactic false

namespace Cm
namespace Sp
open Spec
variable {K : Type}

/-- Where the pair of a collision is, read off its state. -/
def phaseOf : ArbState → Phase
  | .cached => .apart
  | .ignore => .rejected
  | _ => .touching

/-- The states of the collisions agree with the callbacks called so far. -/
structure EvI (s : St K) (P : List Nat) : Prop where
  live : ∀ r, live s r → phase (s.ar r).sa (s.ar r).sb s.evs = some (phaseOf (s.ar r).state)
  rest : ∀ x y, (∀ r, Sp.live s r → (s.ar r).isPair x y = false) → phase x y s.evs = some .apart
  used : ∀ r, thr s r ∨ r ∈ P → (s.ar r).state ≠ .cached ∧ (s.ar r).state ≠ .ignore
  first : ∀ r, Sp.live s r → (s.ar r).state = .first → r ∈ P ∨ thr s r
  stamp : ∀ r, Sp.live s r → (s.ar r).stamp ≤ s.stamp
  pool : ∀ r ∈ s.pool, r < s.fresh

theorem EvI.congr {s s' : St K} {P : List Nat} (E : EvI s P) (hl : ∀ r, Sp.live s' r ↔ Sp.live s r) (ht : ∀ r, thr s' r ↔ thr s r)
    (ha : ∀ r, (s'.ar r).sa = (s.ar r).sa ∧ (s'.ar r).sb = (s.ar r).sb ∧ (s'.ar r).state = (s.ar r).state)
    (he : s'.evs = s.evs) (hst : ∀ r, Sp.live s r → (s.ar r).stamp ≤ s.stamp → (s'.ar r).stamp ≤ s'.stamp) (hp : s'.pool = s.pool) (hf : s'.fresh = s.fresh) :
    EvI s' P := by
  refine ⟨?_, ?_, ?_, ?_, ?_, ?_⟩
  · intro r h; rw [hl] at h; rw [(ha r).1, (ha r).2.1, (ha r).2.2, he]; exact E.live r h
  · intro x y h
    rw [he]; apply E.rest
    intro r hr
    have := h r ((hl r).2 hr)
    simpa only [Ar.isPair, (ha r).1, (ha r).2.1] using this
  · intro r h; rw [ht] at h; rw [(ha r).2.2]; exact E.used r h
  · intro r h h'; rw [hl] at h; rw [(ha r).2.2] at h'; rw [ht]; exact E.first r h h'
  · intro r h; rw [hl] at h; exact hst r h (E.stamp r h)
  · rw [hp, hf]; exact E.pool

theorem EvI.quiet {s s' : St K} {P : List Nat} (E : EvI s P) (q : Quiet s s') : EvI s' P := by
  refine E.congr q.live q.thr (fun r => ⟨(q.ar r).1, (q.ar r).2.1, (q.ar r).2.2.2.2.1⟩) q.evs ?_ q.pool q.fresh
  intro r _ h
  rw [q.stamp]
  rcases q.restamp r with e | ⟨_, e⟩ <;> rw [e]
  exact h

theorem isPair_iff {r : Ar} {x y : Nat} : r.isPair x y = true ↔ ((r.sa = x ∧ r.sb = y) ∨ (r.sa = y ∧ r.sb = x)) := by
  simp [Ar.isPair]

theorem isPair_comm (r : Ar) (x y : Nat) : r.isPair x y = r.isPair y x := by
  simp only [Ar.isPair, Bool.or_comm]

/-- A call about the pair of `r` is about the pair `x`, `y` if and only if `r` is. -/
theorem about_pair {e : Ev} {r : Ar} (h : evPair e = (r.sa, r.sb)) (x y : Nat) : about e x y = r.isPair x y := by
  rw [Bool.eq_iff_iff, isPair_iff]
  simp only [about, h, Prod.mk.injEq, Bool.or_eq_true, decide_eq_true_eq]

/-- The phase of a pair, from the collision found for it. -/
theorem EvI.pair {s : St K} {P : List Nat} (E : EvI s P) {r x y : Nat} (h : Sp.live s r) (hp : (s.ar r).isPair x y = true) :
    phase x y s.evs = some (phaseOf (s.ar r).state) := by
  rcases isPair_iff.1 hp with ⟨h1, h2⟩ | ⟨h1, h2⟩
  · rw [← h1, ← h2]; exact E.live r h
  · rw [phase_comm, ← h1, ← h2]; exact E.live r h

end Sp
end Cm
