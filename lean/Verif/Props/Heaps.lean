import Verif.Props.AllExist
import Verif.Props.Collide
/-! # C149: heaps on open ground always have a solution -/
set_option linter.unusedSectionVars false
set_option linter.unusedSimpArgs false
set_option linter.unusedVariables false

namespace Cm
open Spec Descent
variable {K : Type} [Field K] [LinearOrder K] [IsStrictOrderedRing K]

namespace Spec
/-- The normal of a contact points from one body to the other, if both can move; from immovable bodies it points away from the ground's point `o`:
everything touching gets apart if the heap grows from `o` like a picture that is enlarged. -/
def Opens (bs : Nat → Body K) (o : V2 K) (l : Link (Arbiter K)) : Prop :=
  ((bs l.ia).mInv ≠ 0 ∧ (bs l.ib).mInv ≠ 0 ∧ 0 < l.it.normal.dot ((bs l.ib).p.sub (bs l.ia).p)) ∨
  ((bs l.ia).mInv = 0 ∧ (bs l.ib).mInv ≠ 0 ∧ 0 < l.it.normal.dot ((bs l.ib).p.sub o)) ∨
  ((bs l.ia).mInv ≠ 0 ∧ (bs l.ib).mInv = 0 ∧ 0 < l.it.normal.dot (o.sub (bs l.ia).p))
end Spec

theorem slope_max {α : Type} (f γ : α → K) (D : List α) (h : ∀ t ∈ D, 0 < γ t) : ∃ c : K, ∀ t ∈ D, f t ≤ c * γ t := by
  induction D with
  | nil => exact ⟨0, by simp⟩
  | cons d D ih =>
    obtain ⟨c, hc⟩ := ih fun t ht => h t (by simp [ht])
    refine ⟨max c (f d / γ d), fun t ht => ?_⟩
    rcases List.mem_cons.1 ht with rfl | ht
    · have g := h t (by simp)
      calc f t = f t / γ t * γ t := (div_mul_cancel₀ _ g.ne').symm
        _ ≤ _ := mul_le_mul_of_nonneg_right (le_max_right _ _) g.le
    · exact (hc t ht).trans (mul_le_mul_of_nonneg_right (le_max_left _ _) (h t (by simp [ht])).le)

/-- How a heap grows from `o`. -/
def grows (bs : Nat → Body K) (o : V2 K) (k : Nat) : V2 K := if (bs k).mInv = 0 then ⟨0, 0⟩ else (bs k).p.sub o

theorem opens_grows {bs : Nat → Body K} {o : V2 K} {l : Link (Arbiter K)} (h : Opens bs o l) :
    0 < l.it.normal.x * ((grows bs o l.ib).x - (grows bs o l.ia).x) + l.it.normal.y * ((grows bs o l.ib).y - (grows bs o l.ia).y) := by
  rcases h with ⟨h1, h2, h3⟩ | ⟨h1, h2, h3⟩ | ⟨h1, h2, h3⟩
  · simp only [grows, if_neg h1, if_neg h2]
    simp only [V2.dot, V2.sub] at h3 ⊢
    linarith
  · simp only [grows, if_pos h1, if_neg h2]
    simp only [V2.dot, V2.sub] at h3 ⊢
    linarith
  · simp only [grows, if_neg h1, if_pos h2]
    simp only [V2.dot, V2.sub] at h3 ⊢
    linarith

/-- **C149**. On open ground all contacts can be parted together, as fast as they ask for. -/
theorem C149_parts (κ : Channel K) (s : SolverState K) (bs : Nat → Body K) (o : V2 K) (hb : ∀ k, (s.bodies k).mInv = (bs k).mInv) (ho : ∀ l ∈ s.arbs, Opens bs o l) : ∃ w, Parts κ s w := by
  obtain ⟨c, hc⟩ := slope_max (fun t : Touch K => t.goal - t.speed fun k => κ.flow (s.bodies k))
    (fun t => t.n.x * ((grows bs o t.ib).x - (grows bs o t.ia).x) + t.n.y * ((grows bs o t.ib).y - (grows bs o t.ia).y)) (allTouches κ s.arbs) (by
      intro t ht
      obtain ⟨l, hl, k, -, rfl⟩ := touch_links ht
      exact opens_grows (ho l hl))
  refine ⟨fun k => κ.flow (s.bodies k) + (c * (grows bs o k).x, c * (grows bs o k).y, 0), fun k => ⟨fun h => ?_, fun _ => ?_⟩, fun t ht => ?_⟩
  · rw [hb] at h
    simp [grows, h]
  · simp
  · have := hc t ht
    simp only [Touch.speed, partSpeed, Prod.fst_add, Prod.snd_add] at this ⊢
    linarith

theorem opens_prepared {M : Mth K} {inf slop cbias damping : K} {g : V2 K} {dyn : List Nat} {prevDT dt : K} {s : SolverState K} {o : V2 K} (ho : ∀ l ∈ s.arbs, Opens s.bodies o l) :
    ∀ l ∈ (prepared M inf slop cbias damping g dyn prevDT dt s).arbs, Opens s.bodies o l := by
  intro l hl
  rw [prepared_arbs] at hl
  obtain ⟨l0, m, rfl⟩ := List.mem_map.1 hl
  exact ho l0 m

theorem solves_parts {κ : Channel K} {s : SolverState K} {P : List (Touch K × K)} {u : Flow K} (h : Solves κ s P u) : Parts κ s u := by
  have r := place_reach (μ := fun k => (s.bodies k).mInv) (ι := fun k => (s.bodies k).iInv) (u := u) P
  rw [← start_place h] at r
  refine ⟨fun k => ?_, fun c hc => ?_⟩
  · obtain ⟨r1, r2⟩ := r k
    simp only [away, Prod.fst_sub, Prod.snd_sub, sub_eq_zero] at r1 r2
    exact ⟨fun e => ⟨((r1 e).1).symm, ((r1 e).2).symm⟩, fun e => (r2 e).symm⟩
  · rw [← h.all] at hc
    obtain ⟨p, hp, rfl⟩ := List.mem_map.1 hc
    exact h.part p hp

/-- For any heap on open ground, whatever its friction and joints, the solver's corrections of overlaps settle, and they correct every overlap at least as fast as it asks for. -/
theorem C149_overlaps [Archimedean K] (M : Mth K) (inf slop cbias damping : K) (g : V2 K) (dyn : List Nat) (prevDT dt : K) (s : SolverState K)
    (hm : ∀ k, 0 ≤ (s.bodies k).mInv ∧ 0 ≤ (s.bodies k).iInv) (hf : ∀ l ∈ s.arbs, Pushable s.bodies l) (o : V2 K) (ho : ∀ l ∈ s.arbs, Opens s.bodies o l) :
    ∃ u, Parts .corrections (prepared M inf slop cbias damping g dyn prevDT dt s) u ∧
      ∀ ε > 0, ∃ n0, ∀ n ≥ n0, ∀ k, FlowNear ε (Channel.corrections.flow ((s.solve M inf slop cbias damping g dyn prevDT dt n).bodies k)) (u k) := by
  have ms := prepared_masses M inf slop cbias damping g dyn prevDT dt s
  obtain ⟨w, hw⟩ := C149_parts .corrections (prepared M inf slop cbias damping g dyn prevDT dt s) s.bodies o (fun k => (ms k).1) (opens_prepared ho)
  obtain ⟨P, u, h⟩ := (C148_contacts .corrections (s := prepared M inf slop cbias damping g dyn prevDT dt s) (fun k => by rw [(ms k).1, (ms k).2]; exact hm k) (by
    intro l hl
    rw [prepared_arbs] at hl
    obtain ⟨l0, m, rfl⟩ := List.mem_map.1 hl
    exact (hf l0 m).ne)).2 ⟨w, hw⟩
  exact ⟨u, solves_parts h, C128_solver M inf slop cbias damping g dyn prevDT dt s hm hf P u h⟩

/-- Without friction and joints the velocities settle too, and all bodies part at least as fast as asked for. -/
theorem C149_speeds [Archimedean K] (M : Mth K) (inf slop cbias damping : K) (g : V2 K) (dyn : List Nat) (prevDT dt : K) (s : SolverState K)
    (hm : ∀ k, 0 ≤ (s.bodies k).mInv ∧ 0 ≤ (s.bodies k).iInv) (hf : ∀ l ∈ s.arbs, Pushable s.bodies l ∧ Smooth l ∧ ∀ c ∈ l.it.contacts, 0 ≤ c.jnAcc) (hj : s.joints = [])
    (o : V2 K) (ho : ∀ l ∈ s.arbs, Opens s.bodies o l) :
    ∃ u, Parts .impacts (prepared M inf slop cbias damping g dyn prevDT dt s) u ∧
      ∀ ε > 0, ∃ n0, ∀ n ≥ n0, ∀ k, FlowNear ε (Channel.impacts.flow ((s.solve M inf slop cbias damping g dyn prevDT dt n).bodies k)) (u k) := by
  have ms := prepared_masses M inf slop cbias damping g dyn prevDT dt s
  obtain ⟨w, hw⟩ := C149_parts .impacts (prepared M inf slop cbias damping g dyn prevDT dt s) s.bodies o (fun k => (ms k).1) (opens_prepared ho)
  obtain ⟨P, u, h⟩ := (C148_contacts .impacts (s := prepared M inf slop cbias damping g dyn prevDT dt s) (fun k => by rw [(ms k).1, (ms k).2]; exact hm k) (by
    intro l hl
    rw [prepared_arbs] at hl
    obtain ⟨l0, m, rfl⟩ := List.mem_map.1 hl
    exact (hf l0 m).1.ne)).2 ⟨w, hw⟩
  exact ⟨u, solves_parts h, C128_solver_impacts M inf slop cbias damping g dyn prevDT dt s hm hf hj P u h⟩

/-- Balls with different centres that overlap are such contacts: the normal found for them points from the one to the other. -/
theorem C149_balls {M : Mth K} (hM : M.Lawful) (c1 c2 : Circle K) (info : Info K) (hi : info.contacts = []) (hr : 0 ≤ c1.radius + c2.radius) (hne : c1.tc ≠ c2.tc)
    (ht : (circleToCircle M c1 c2 info).contacts ≠ []) : 0 < (circleToCircle M c1 c2 info).n.dot (c2.tc.sub c1.tc) := by
  obtain ⟨h1, h2⟩ := C44_circles hM c1 c2 info hi hr
  obtain ⟨n, p1, p2, e, -, u, d, -⟩ := h2 (h1.1 ht)
  rw [e]
  have d0 : 0 ≤ dist M c1.tc c2.tc := hM.sqrt_nonneg _ (dist2_nonneg _ _)
  have d1 : dist M c1.tc c2.tc ≠ 0 := by
    intro h
    rw [h] at d
    apply hne
    rw [d]
    refine V2.ext ?_ ?_ <;> simp [V2.add, V2.scale]
  have e2 : n.dot (c2.tc.sub c1.tc) = n.lengthSq * dist M c1.tc c2.tc := by
    generalize dist M c1.tc c2.tc = t at d
    rw [d]
    simp only [V2.dot, V2.sub, V2.add, V2.scale, V2.lengthSq]
    ring
  rw [e2, u, one_mul]
  exact lt_of_le_of_ne d0 (Ne.symm d1)

example : (circleToCircle realMth (⟨⟨0, 0⟩, ⟨0, 0⟩, 1⟩ : Circle ℝ) ⟨⟨3, 0⟩, ⟨3, 0⟩, 5/2⟩ ⟨false, 0, V2.zero, []⟩).contacts ≠ [] := by
  simp only [circleToCircle]
  rw [if_pos (by norm_num [V2.sub, V2.lengthSq, V2.dot])]
  simp

/-- The pile of balls on a floor. -/
example : (∀ k, 0 ≤ ((exPile 0).bodies k).mInv ∧ 0 ≤ ((exPile 0).bodies k).iInv) ∧ (exPile 0).joints = [] ∧
    (∀ l ∈ (exPile 0).arbs, Pushable (exPile 0).bodies l ∧ Smooth l ∧ ∀ c ∈ l.it.contacts, 0 ≤ c.jnAcc) ∧ ∀ l ∈ (exPile 0).arbs, Opens (exPile 0).bodies ⟨0, 0⟩ l := by
  refine ⟨fun k => ?_, rfl, fun l hl => ?_, fun l hl => ?_⟩
  · simp only [exPile]; split_ifs <;> simp [Body.blank]
  · simp only [exPile, List.mem_cons, List.not_mem_nil, or_false] at hl
    rcases hl with rfl | rfl
    · exact ⟨⟨by simp, by norm_num, by simp [exPile]⟩, ⟨by norm_num, by simp [V2.dot], by simp⟩, by simp⟩
    · exact ⟨⟨by simp, by norm_num, by simp [exPile]⟩, ⟨by norm_num, by simp [V2.dot], by simp⟩, by simp⟩
  · simp only [exPile, List.mem_cons, List.not_mem_nil, or_false] at hl
    rcases hl with rfl | rfl
    · exact .inr (.inl (by simp [exPile, V2.dot, V2.sub]))
    · exact .inl (by simp [exPile, V2.dot, V2.sub])

/-- In the gap that is too narrow there is no such point. -/
example (o : V2 ℚ) : ¬∀ l ∈ exJam.arbs, Opens exJam.bodies o l := by
  intro h
  have h1 := h _ (List.mem_cons_self)
  have h2 := h _ (List.mem_cons_of_mem _ List.mem_cons_self)
  simp [Opens, exJam, V2.dot, V2.sub, Body.blank, V2.zero] at h1 h2
  linarith

end Cm
