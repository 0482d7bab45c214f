import Verif.Props.Contact
import Verif.Props.Body
/-! # C87: stored inverses of mass and moment -/
set_option linter.unusedSectionVars false
set_option linter.unusedSimpArgs false
set_option linter.unusedVariables false

namespace Cm
open Spec
variable {K : Type} [Field K] [LinearOrder K] [IsStrictOrderedRing K]

namespace Spec
/-- The shapes have no negative mass or moment, one of them has both, and the total mass is finite. -/
def Massive (inf : K) (l : List (MassInfo K)) : Prop :=
  (∀ s ∈ l, 0 ≤ s.m ∧ 0 ≤ s.i) ∧ (∃ s ∈ l, 0 < s.m ∧ 0 < s.i) ∧ massSum l < inf

/-- Calls that keep the masses meaningful: positive finite values, and for dynamic bodies only. -/
def MassAllowed (inf : K) (b : Body K) : Body.Op K → Prop
  | .setMass m => 0 < m ∧ m < inf ∧ b.type inf = .dynamic
  | .setMoment i => 0 < i ∧ b.type inf = .dynamic
  | .setType t l => t = .dynamic → Massive inf l
  | .accumulate l => Massive inf l
  | _ => True

/-- A history of such calls. -/
def MassHistory (M : Mth K) (inf : K) : Body K → List (Body.Op K) → Prop
  | _, [] => True
  | b, op :: ops => MassAllowed inf b op ∧ MassHistory M inf (b.step M inf op) ops

/-- What the solver relies on: a dynamic body has positive mass and moment and their inverses, any other has none to be moved by. -/
def MassOk (inf : K) (b : Body K) : Prop :=
  (b.type inf = .dynamic ∧ 0 < b.m ∧ b.m < inf ∧ b.mInv = 1 / b.m ∧ 0 < b.i ∧ b.iInv = 1 / b.i) ∨
  (b.type inf ≠ .dynamic ∧ b.m = inf ∧ b.mInv = 0 ∧ b.i = inf ∧ b.iInv = 0)

/-- The bodies `NewBody`, `NewStaticBody` and `NewKinematicBody` build (body.go:73-99). -/
def Built (M : Mth K) (inf : K) (b : Body K) : Prop :=
  (∃ m i, 0 < m ∧ m < inf ∧ 0 < i ∧ b = Body.new M m i) ∨
  b = (Body.new M 0 0).setType M inf .static [] ∨ b = (Body.new M 0 0).setType M inf .kinematic []
end Spec

theorem massSum_pos {inf : K} {l : List (MassInfo K)} (h : Massive inf l) : 0 < massSum l := by
  obtain ⟨h1, ⟨s, hs, hm, _⟩, _⟩ := h
  induction l with
  | nil => simp at hs
  | cons t l ih =>
    simp only [massSum, List.map_cons, List.sum_cons]
    have hl : 0 ≤ (l.map (·.m)).sum := List.sum_nonneg (by
      intro x hx
      obtain ⟨y, hy, rfl⟩ := List.mem_map.1 hx
      exact (h1 y (by simp [hy])).1)
    rcases List.mem_cons.1 hs with rfl | hs
    · linarith
    · have hp : 0 < (l.map (·.m)).sum :=
        lt_of_lt_of_le hm (List.single_le_sum (fun x hx => by
          obtain ⟨y, hy, rfl⟩ := List.mem_map.1 hx
          exact (h1 y (by simp [hy])).1) _ (List.mem_map.2 ⟨s, hs, rfl⟩))
      have := (h1 t (by simp)).1
      linarith

theorem inertia_pos {inf : K} {l : List (MassInfo K)} (h : Massive inf l) (c : V2 K) : 0 < inertiaAbout l c := by
  obtain ⟨h1, ⟨s, hs, hm, hi⟩, _⟩ := h
  have hd : ∀ t : MassInfo K, 0 ≤ dist2 t.cog c := fun t => by unfold dist2; positivity
  refine lt_of_lt_of_le (mul_pos hm (add_pos_of_pos_of_nonneg hi (hd s))) ?_
  exact List.single_le_sum (fun x hx => by
    obtain ⟨y, hy, rfl⟩ := List.mem_map.1 hx
    exact mul_nonneg (h1 y hy).1 (add_nonneg (h1 y hy).2 (hd y))) _ (List.mem_map.2 ⟨s, hs, rfl⟩)

theorem type_dynamic {inf : K} {b : Body K} : b.type inf = .dynamic ↔ b.idle ≠ inf ∧ b.m ≠ inf := by
  unfold Body.type
  split_ifs <;> simp_all

theorem accumulate_massOk (M : Mth K) {inf : K} {b : Body K} (hd : b.type inf = .dynamic) {l : List (MassInfo K)} (hl : Massive inf l) :
    MassOk inf (b.accumulate M inf l) := by
  obtain ⟨e1, -, e3, e4, e5⟩ := C32_mass_properties M inf b l hd (fun s hs => (hl.1 s hs).1) (massSum_pos hl)
  obtain ⟨-, -, -, -, -, -, -, -, e9⟩ := accumulate_eq M inf b l hd
  refine .inl ⟨type_dynamic.2 ⟨?_, ?_⟩, ?_, ?_, ?_, ?_, ?_⟩
  · rw [e9]; exact (type_dynamic.1 hd).1
  · rw [e1]; exact hl.2.2.ne
  · rw [e1]; exact massSum_pos hl
  · rw [e1]; exact hl.2.2
  · rw [e4, e1]
  · rw [e3]; exact inertia_pos hl _
  · rw [e5, e3]

theorem massOk_of_same {inf : K} {b b' : Body K} (h : MassOk inf b) (h1 : b'.m = b.m) (h2 : b'.mInv = b.mInv) (h3 : b'.i = b.i)
    (h4 : b'.iInv = b.iInv) (h5 : b'.idle = b.idle) : MassOk inf b' := by
  simp only [MassOk, Body.type, h1, h2, h3, h4, h5] at h ⊢
  exact h

theorem setType_other (M : Mth K) (inf : K) (b : Body K) (t : BodyType) (l : List (MassInfo K)) (h1 : b.type inf ≠ t) (h : t ≠ .dynamic) :
    b.setType M inf t l = { b with idle := if t = BodyType.static then inf else 0, m := inf, i := inf, mInv := 0, iInv := 0, v := V2.zero, w := 0 } := by
  unfold Body.setType
  rw [if_neg h1]
  simp only [if_neg h]

theorem setType_dynamic (M : Mth K) (inf : K) (b : Body K) (l : List (MassInfo K)) (h1 : b.type inf ≠ .dynamic) :
    b.setType M inf .dynamic l = ({ b with idle := 0, m := 0, i := 0, mInv := inf, iInv := inf } : Body K).accumulate M inf l := by
  unfold Body.setType
  rw [if_neg h1]
  simp only [if_true, reduceCtorEq, if_false]

theorem accumulate_dynamic (M : Mth K) {inf : K} {b : Body K} (hd : b.type inf = .dynamic) {l : List (MassInfo K)} (hl : Massive inf l) :
    (b.accumulate M inf l).type inf = .dynamic := by
  obtain ⟨e1, -⟩ := C32_mass_properties M inf b l hd (fun s hs => (hl.1 s hs).1) (massSum_pos hl)
  obtain ⟨-, -, -, -, -, -, -, -, e9⟩ := accumulate_eq M inf b l hd
  rw [type_dynamic, e9, e1]
  exact ⟨(type_dynamic.1 hd).1, hl.2.2.ne⟩

/-- **C87** After `SetType` the body has the type asked for. -/
theorem C87_type (M : Mth K) (inf : K) (hinf : 0 < inf) (b : Body K) (t : BodyType) (l : List (MassInfo K))
    (hl : t = .dynamic → Massive inf l) : (b.setType M inf t l).type inf = t := by
  by_cases h1 : b.type inf = t
  · unfold Body.setType; rw [if_pos h1]; exact h1
  · cases t with
    | dynamic =>
      rw [setType_dynamic M inf b l h1]
      exact accumulate_dynamic M (type_dynamic.2 ⟨hinf.ne, hinf.ne⟩) (hl rfl)
    | kinematic => rw [setType_other M inf b _ l h1 (by simp)]; simp [Body.type, hinf.ne]
    | static => rw [setType_other M inf b _ l h1 (by simp)]; simp [Body.type]

theorem setType_massOk (M : Mth K) {inf : K} (hinf : 0 < inf) {b : Body K} {t : BodyType} {l : List (MassInfo K)}
    (hl : t = .dynamic → Massive inf l) (hb : b.type inf = t → MassOk inf b) : MassOk inf (b.setType M inf t l) := by
  have ht := C87_type M inf hinf b t l hl
  by_cases h1 : b.type inf = t
  · unfold Body.setType; rw [if_pos h1]; exact hb h1
  · by_cases h3 : t = .dynamic
    · subst h3
      rw [setType_dynamic M inf b l h1]
      exact accumulate_massOk M (type_dynamic.2 ⟨hinf.ne, hinf.ne⟩) (hl rfl)
    · refine .inr ⟨by rw [ht]; exact h3, ?_⟩
      rw [setType_other M inf b t l h1 h3]
      exact ⟨rfl, rfl, rfl, rfl⟩

theorem step_massOk (M : Mth K) {inf : K} (hinf : 0 < inf) {b : Body K} (h : MassOk inf b) {op : Body.Op K} (ho : MassAllowed inf b op) :
    MassOk inf (b.step M inf op) := by
  cases op with
  | setMass m =>
    obtain ⟨h1, h2, h3⟩ := ho
    rcases h with h | h
    · refine .inl ⟨type_dynamic.2 ⟨(type_dynamic.1 h3).1, h2.ne⟩, h1, h2, rfl, h.2.2.2.2.1, h.2.2.2.2.2⟩
    · exact absurd h3 h.1
  | setMoment i =>
    obtain ⟨h1, h3⟩ := ho
    rcases h with h | h
    · exact .inl ⟨h3, h.2.1, h.2.2.1, h.2.2.2.1, h1, rfl⟩
    · exact absurd h3 h.1
  | setType t l => exact setType_massOk M hinf ho (fun _ => h)
  | accumulate l =>
    by_cases hd : b.type inf = .dynamic
    · exact accumulate_massOk M hd ho
    · show MassOk inf (b.accumulate M inf l)
      unfold Body.accumulate; rw [if_pos hd]; exact h
  | updateVelocity g d dt =>
    show MassOk inf (b.updateVelocity inf g d dt)
    unfold Body.updateVelocity
    split
    · exact h
    · exact massOk_of_same h rfl rfl rfl rfl rfl
  | _ => exact massOk_of_same h rfl rfl rfl rfl rfl

/-- **C87** After any history of calls a dynamic body has positive mass and moment and stores their inverses, and any other body has infinite
mass and moment and stores zero. -/
theorem C87_inverses (M : Mth K) (inf : K) (hinf : 0 < inf) (b : Body K) (hb : Built M inf b) (ops : List (Body.Op K))
    (ho : MassHistory M inf b ops) : MassOk inf (b.run M inf ops) := by
  have h0 : MassOk inf b := by
    rcases hb with ⟨m, i, h1, h2, h3, rfl⟩ | rfl | rfl
    · exact .inl ⟨type_dynamic.2 ⟨hinf.ne, h2.ne⟩, h1, h2, rfl, h3, rfl⟩
    all_goals
      refine setType_massOk M hinf (by simp) (fun h => ?_)
      have : (Body.new M (0 : K) 0).type inf = .dynamic := type_dynamic.2 ⟨hinf.ne, hinf.ne⟩
      rw [this] at h; cases h
  clear hb
  induction ops generalizing b with
  | nil => exact h0
  | cons op ops ih => exact ih _ ho.2 (step_massOk M hinf h0 ho.1)

/-- **C87** Hence no contact moves a body that is not dynamic. -/
theorem C87_unmoved (M : Mth K) (inf : K) (hinf : 0 < inf) (b : Body K) (hb : Built M inf b) (ops : List (Body.Op K))
    (ho : MassHistory M inf b ops) (hd : (b.run M inf ops).type inf ≠ .dynamic) (arb : Arbiter K) (dtCoef : K) (n : Nat) (c : Body K) :
    (solveContact arb dtCoef n (b.run M inf ops) c).1 = b.run M inf ops ∧
    (solveContact arb dtCoef n c (b.run M inf ops)).2.1 = b.run M inf ops := by
  have h : Immovable (b.run M inf ops) := by
    rcases C87_inverses M inf hinf b hb ops ho with h | h
    · exact absurd h.1 hd
    · exact ⟨h.2.2.1, h.2.2.2.2⟩
  exact ⟨(C34_linear arb dtCoef n _ c).fixA h, (C34_linear arb dtCoef n c _).fixB h⟩

/-- `SetMass` is not refused on a static body: it stays static and every impulse then moves it. -/
theorem C87_static_mass (inf : K) (b : Body K) (hs : b.type inf = .static) (m : K) (hm : m ≠ 0) (j r : V2 K) :
    (b.setMass m).type inf = .static ∧
    m * (((b.setMass m).applyImpulse j r).v.x - b.v.x) = j.x ∧ m * (((b.setMass m).applyImpulse j r).v.y - b.v.y) = j.y := by
  refine ⟨?_, ?_, ?_⟩
  · unfold Body.type at hs ⊢
    have : b.idle = inf := by
      by_contra h
      rw [if_neg h] at hs
      split_ifs at hs
    simp [Body.setMass, this]
  all_goals
    simp only [Body.setMass, Body.applyImpulse]
    field_simp
    ring

/-! ## Examples -/

example : Built toyMth 1000 (Body.new toyMth 2 3) ∧
    MassHistory toyMth 1000 (Body.new toyMth 2 3)
      [.setMass 5, .setType .static [], .setType .dynamic [⟨4, 1, ⟨1, 0⟩⟩, ⟨0, 0, ⟨0, 0⟩⟩], .setMoment 7] ∧
    ((Body.new toyMth 2 3).run toyMth 1000
      [.setMass 5, .setType .static [], .setType .dynamic [⟨4, 1, ⟨1, 0⟩⟩, ⟨0, 0, ⟨0, 0⟩⟩], .setMoment 7]).mInv = 1/4 := by
  refine ⟨.inl ⟨2, 3, by norm_num, by norm_num, by norm_num, rfl⟩, ⟨⟨by norm_num, by norm_num, by decide +kernel⟩, by simp [MassAllowed], ?_,
    ⟨by norm_num, by decide +kernel⟩, trivial⟩, by decide +kernel⟩
  intro _
  refine ⟨?_, ⟨⟨4, 1, ⟨1, 0⟩⟩, by simp, by norm_num⟩, by norm_num [massSum]⟩
  intro s hs
  simp only [List.mem_cons, List.not_mem_nil, or_false] at hs
  rcases hs with rfl | rfl <;> norm_num

/-- A static body given a mass is pushed by a contact. -/
example : let b := ((Body.new toyMth 0 0).setType toyMth 1000 .static []).setMass 2
    b.type 1000 = .static ∧ (b.applyImpulse ⟨2, 0⟩ ⟨0, 0⟩).v = ⟨1, 0⟩ := by
  decide +kernel

end Cm
