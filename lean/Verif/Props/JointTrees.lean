import Verif.Props.JointsStrong
/-! # C150: joints that form trees can always be met -/
set_option linter.unusedSectionVars false
set_option linter.unusedSimpArgs false
set_option linter.unusedVariables false

namespace Cm
open Spec Descent
variable {K : Type} [Field K] [LinearOrder K] [IsStrictOrderedRing K]

namespace Spec
/-- The joints form trees: each hangs a body that can move and turn, and that no joint further down the list holds, on another. -/
def Hangs (bs : Nat → Body K) : List (Link (Joint K)) → Prop
  | [] => True
  | l :: ls => Hangs bs ls ∧
      (((bs l.ib).mInv ≠ 0 ∧ (bs l.ib).iInv ≠ 0 ∧ ∀ m ∈ ls, m.ia ≠ l.ib ∧ m.ib ≠ l.ib) ∨
       ((bs l.ia).mInv ≠ 0 ∧ (bs l.ia).iInv ≠ 0 ∧ ∀ m ∈ ls, m.ia ≠ l.ia ∧ m.ib ≠ l.ia))
end Spec

/-- The second body of a joint can give it what it asks for, however the first moves. -/
theorem second_meets {jt : Joint K} {a b : Body K} (h : Tied jt a b) (x : K × K × K) : ∃ y, ∀ m ∈ misses jt x y, m = 0 := by
  cases jt with
  | pin j =>
    obtain ⟨-, u, -⟩ := h
    set c := j.bias + ((x.1 - x.2.2 * j.r1.y) * j.n.x + (x.2.1 + x.2.2 * j.r1.x) * j.n.y) with hc
    refine ⟨(c * j.n.x, c * j.n.y, 0), fun m hm => ?_⟩
    simp only [misses, List.mem_cons, List.not_mem_nil, or_false] at hm
    subst hm
    simp only [partSpeed]
    linear_combination c * u - hc
  | pivot j =>
    refine ⟨(j.bias.x + (x.1 - x.2.2 * j.r1.y), j.bias.y + (x.2.1 + x.2.2 * j.r1.x), 0), fun m hm => ?_⟩
    simp only [misses, List.mem_cons, List.not_mem_nil, or_false] at hm
    rcases hm with rfl | rfl <;> simp only [partSpeed] <;> ring
  | gear j =>
    obtain ⟨-, u, -⟩ := h
    refine ⟨(0, 0, (j.bias + x.2.2) / j.ratio), fun m hm => ?_⟩
    simp only [misses, List.mem_cons, List.not_mem_nil, or_false] at hm
    rw [hm, div_mul_cancel₀ _ u]
    ring
  | motor j =>
    refine ⟨(0, 0, x.2.2 - j.rate), fun m hm => ?_⟩
    simp only [misses, List.mem_cons, List.not_mem_nil, or_false] at hm
    rw [hm]
    ring
  | slide j => exact h.elim
  | groove j => exact h.elim
  | ratchet j => exact h.elim
  | rotaryLimit j => exact h.elim
  | spring j => exact h.elim
  | rotarySpring j => exact h.elim

/-- So can the first, however the second moves. -/
theorem first_meets {jt : Joint K} {a b : Body K} (h : Tied jt a b) (y : K × K × K) : ∃ x, ∀ m ∈ misses jt x y, m = 0 := by
  cases jt with
  | pin j =>
    obtain ⟨-, u, -⟩ := h
    set c := (y.1 - y.2.2 * j.r2.y) * j.n.x + (y.2.1 + y.2.2 * j.r2.x) * j.n.y - j.bias with hc
    refine ⟨(c * j.n.x, c * j.n.y, 0), fun m hm => ?_⟩
    simp only [misses, List.mem_cons, List.not_mem_nil, or_false] at hm
    subst hm
    simp only [partSpeed]
    linear_combination -c * u - hc
  | pivot j =>
    refine ⟨((y.1 - y.2.2 * j.r2.y) - j.bias.x, (y.2.1 + y.2.2 * j.r2.x) - j.bias.y, 0), fun m hm => ?_⟩
    simp only [misses, List.mem_cons, List.not_mem_nil, or_false] at hm
    rcases hm with rfl | rfl <;> simp only [partSpeed] <;> ring
  | gear j =>
    refine ⟨(0, 0, y.2.2 * j.ratio - j.bias), fun m hm => ?_⟩
    simp only [misses, List.mem_cons, List.not_mem_nil, or_false] at hm
    rw [hm]
    ring
  | motor j =>
    refine ⟨(0, 0, y.2.2 + j.rate), fun m hm => ?_⟩
    simp only [misses, List.mem_cons, List.not_mem_nil, or_false] at hm
    rw [hm]
    ring
  | slide j => exact h.elim
  | groove j => exact h.elim
  | ratchet j => exact h.elim
  | rotaryLimit j => exact h.elim
  | spring j => exact h.elim
  | rotarySpring j => exact h.elim

/-- **C150**. Pins, pivots, gears and motors that form trees, listed in any order, can always be met together, whatever they ask for. -/
theorem C150_trees (s : SolverState K) (hj : ∀ l ∈ s.joints, l.ia ≠ l.ib ∧ Tied l.it (s.bodies l.ia) (s.bodies l.ib)) (ls : List (Link (Joint K))) (hp : s.joints.Perm ls)
    (ht : Hangs s.bodies ls) : ∃ w, Agrees s w := by
  suffices H : ∀ ls : List (Link (Joint K)), (∀ l ∈ ls, l.ia ≠ l.ib ∧ Tied l.it (s.bodies l.ia) (s.bodies l.ib)) → Hangs s.bodies ls →
      ∃ w : Flow K, (∀ k, ((s.bodies k).mInv = 0 ∨ (s.bodies k).iInv = 0) → w k = Channel.impacts.flow (s.bodies k)) ∧ ∀ l ∈ ls, ∀ m ∈ misses l.it (w l.ia) (w l.ib), m = 0 by
    obtain ⟨w, h1, h2⟩ := H ls (fun l hl => hj l (hp.mem_iff.2 hl)) ht
    refine ⟨w, fun k => ⟨fun e => ?_, fun e => ?_⟩, fun l hl => h2 l (hp.mem_iff.1 hl)⟩
    · rw [h1 k (.inl e)]; exact ⟨rfl, rfl⟩
    · rw [h1 k (.inr e)]; rfl
  intro ls
  induction ls with
  | nil => exact fun _ _ => ⟨fun k => Channel.impacts.flow (s.bodies k), fun _ _ => rfl, by simp⟩
  | cons l ls ih =>
    intro hl ht
    obtain ⟨w, w1, w2⟩ := ih (fun m hm => hl m (by simp [hm])) ht.1
    obtain ⟨ne, ti⟩ := hl l (by simp)
    rcases ht.2 with ⟨t1, t2, t3⟩ | ⟨t1, t2, t3⟩
    · obtain ⟨y, hy⟩ := second_meets ti (w l.ia)
      refine ⟨Function.update w l.ib y, fun k hk => ?_, fun m hm => ?_⟩
      · rw [Function.update_of_ne (by rintro rfl; exact hk.elim t1 t2), w1 k hk]
      · rcases List.mem_cons.1 hm with rfl | hm
        · rw [Function.update_self, Function.update_of_ne ne]; exact hy
        · rw [Function.update_of_ne (t3 m hm).1, Function.update_of_ne (t3 m hm).2]; exact w2 m hm
    · obtain ⟨y, hy⟩ := first_meets ti (w l.ib)
      refine ⟨Function.update w l.ia y, fun k hk => ?_, fun m hm => ?_⟩
      · rw [Function.update_of_ne (by rintro rfl; exact hk.elim t1 t2), w1 k hk]
      · rcases List.mem_cons.1 hm with rfl | hm
        · rw [Function.update_self, Function.update_of_ne ne.symm]; exact hy
        · rw [Function.update_of_ne (t3 m hm).1, Function.update_of_ne (t3 m hm).2]; exact w2 m hm

/-- So trees of joints that are strong enough always come to hold: ropes, chains, ragdolls and trains of gears. -/
theorem C150_hold [Archimedean K] {M : Mth K} (hM : M.Lawful) (dt : K) (s : SolverState K) (hc : s.arbs = []) (hm : ∀ k, 0 ≤ (s.bodies k).mInv ∧ 0 ≤ (s.bodies k).iInv)
    (hj : ∀ l ∈ s.joints, l.ia ≠ l.ib ∧ Tied l.it (s.bodies l.ia) (s.bodies l.ib)) (ls : List (Link (Joint K))) (hp : s.joints.Perm ls) (ht : Hangs s.bodies ls) :
    ∃ F, ∀ f, F < f * dt → ∃ u, Agrees s u ∧ ∀ ε > 0, ∃ n0, ∀ n ≥ n0, ∀ k,
      FlowNear ε (Channel.impacts.flow (((SolverState.iterate M dt)^[n] (allStrong f s)).bodies k)) (u k) :=
  C145_hold hM dt s hc hm hj (C150_trees s hj ls hp ht)

/-! ## Examples -/

/-- The train of two motors, from the end that hangs last. -/
example : (exTrain 1).joints.Perm (exTrain 1).joints.reverse ∧ Hangs (exTrain 1).bodies (exTrain 1).joints.reverse := by
  refine ⟨(List.reverse_perm _).symm, ?_⟩
  simp [exTrain, Hangs]

/-- Two motors between the same two discs that ask for different rates are no tree, and cannot be met. -/
def exFight : SolverState ℚ :=
  ⟨fun _ => { Body.blank with m := 1, mInv := 1, i := 1, iInv := 1 }, [], [⟨0, 1, .motor ⟨⟨3, 1, 1⟩, 0, 1/2, 0⟩⟩, ⟨0, 1, .motor ⟨⟨3, 1, 1⟩, 1, 1/2, 0⟩⟩]⟩

example : (¬∃ ls, exFight.joints.Perm ls ∧ Hangs exFight.bodies ls) ∧ ¬∃ w, Agrees exFight w := by
  have n : ¬∃ w, Agrees exFight w := by
    rintro ⟨w, -, h⟩
    have h1 := h ⟨0, 1, .motor ⟨⟨3, 1, 1⟩, 0, 1/2, 0⟩⟩ (by simp [exFight]) _ (List.mem_singleton.2 rfl)
    have h2 := h ⟨0, 1, .motor ⟨⟨3, 1, 1⟩, 1, 1/2, 0⟩⟩ (by simp [exFight]) _ (List.mem_singleton.2 rfl)
    simp only at h1 h2
    linarith
  refine ⟨fun ⟨ls, h1, h2⟩ => n (C150_trees exFight ?_ ls h1 h2), n⟩
  intro l hl
  simp only [exFight, List.mem_cons, List.not_mem_nil, or_false] at hl
  rcases hl with rfl | rfl <;> exact ⟨by simp, by simp [Tied, Turnable, exFight]; norm_num⟩

end Cm
