import Verif.Model.Collide
import Verif.Props.ShapePoly
/-! # C45: closest points (GJK and EPA) -/
set_option linter.unusedSectionVars false
set_option linter.unusedSimpArgs false
set_option linter.unusedVariables false

namespace Cm
open Spec
variable {K : Type} [Field K] [LinearOrder K] [IsStrictOrderedRing K]

/-! ## The orientation test -/

theorem pointGreater_zero (v b : V2 K) : pointGreater v b V2.zero = true ↔ 0 < v.cross b := by
  simp only [pointGreater, V2.zero, V2.cross, decide_eq_true_eq, mul_zero, sub_zero]
  constructor <;> intro h <;> nlinarith

theorem pointGreater_iff (v b c : V2 K) : pointGreater v b c = true ↔ (b.sub v).perp.dot v < (b.sub v).perp.dot c := by
  simp only [pointGreater, V2.perp, V2.dot, V2.sub, decide_eq_true_eq]
  constructor <;> intro h <;> nlinarith

/-- The recursive call of `GJKRecurse` that exchanges its points is not followed by another one: collision.go:387-390. -/
theorem flip_once (v0 v1 : V2 K) (h : pointGreater v1 v0 V2.zero = true) : pointGreater v0 v1 V2.zero = false := by
  rw [pointGreater_zero] at h
  rw [Bool.eq_false_iff, ne_eq, pointGreater_zero]
  simp only [V2.cross] at *
  linarith

/-! ## Support functions -/

namespace Spec
/-- The corners of a shape: its skeleton is their hull. -/
def corners : Cls K → List (V2 K)
  | .circle c => [c.tc]
  | .segment s => [s.ta, s.tb]
  | .poly p => p.world.map Plane.v0

/-- All corners within `B` of the origin, in each coordinate. -/
def Within (B : K) (s : Cls K) : Prop := ∀ v ∈ corners s, |v.x| ≤ B ∧ |v.y| ≤ B
end Spec

theorem core_hull (s : Cls K) (x : V2 K) : Core s x ↔ Hull (corners s) x := by
  cases s with
  | circle c =>
    simp only [Core, corners]
    constructor
    · rintro rfl; exact .vert _ (by simp)
    · intro h
      induction h with
      | vert v hv => simpa using hv
      | mix p q t _ _ _ _ ihp ihq => rw [ihp, ihq]; simp only [At]; ext <;> simp only <;> ring
  | segment g =>
    simp only [Core, corners]
    constructor
    · rintro ⟨t, h0, h1, rfl⟩; exact .mix _ _ t (.vert _ (by simp)) (.vert _ (by simp)) h0 h1
    · intro h
      induction h with
      | vert v hv =>
        rcases List.mem_pair.1 hv with rfl | rfl
        · exact ⟨0, le_refl _, zero_le_one, by simp only [At]; ext <;> simp only <;> ring⟩
        · exact ⟨1, zero_le_one, le_refl _, by simp only [At]; ext <;> simp only <;> ring⟩
      | mix p q t _ _ h0 h1 ihp ihq =>
        obtain ⟨a, a0, a1, rfl⟩ := ihp
        obtain ⟨b, b0, b1, rfl⟩ := ihq
        refine ⟨a + (b - a) * t, by nlinarith, by nlinarith, ?_⟩
        simp only [At]; ext <;> simp only <;> ring
  | poly p => exact Iff.rfl

/-- A linear bound on the corners holds on the whole shape. -/
theorem hull_dot_le (l : List (V2 K)) (n : V2 K) (m : K) (h : ∀ v ∈ l, v.dot n ≤ m) (x : V2 K) (hx : Hull l x) : x.dot n ≤ m := by
  induction hx with
  | vert v hv => exact h v hv
  | mix p q t _ _ h0 h1 ihp ihq =>
    have : (At p q t).dot n = p.dot n * (1 - t) + q.dot n * t := by simp only [At, V2.dot]; ring
    rw [this]
    nlinarith

theorem supportIndexGo_spec (n : V2 K) (l : List (Plane K)) : ∀ (pre : List (Plane K)) (mx : K) (index : Nat),
    (∀ v ∈ pre, v.v0.dot n ≤ mx) → (∀ v ∈ pre ++ l, ∀ w, w = planeAt (pre ++ l) index → pre ≠ [] → w.v0.dot n = mx) →
    (pre ≠ [] → index < pre.length) → (pre = [] → index = 0 ∧ ∀ v ∈ l, mx < v.v0.dot n) → pre ++ l ≠ [] →
    supportIndexGo n l pre.length mx index < (pre ++ l).length ∧
      ∀ v ∈ pre ++ l, v.v0.dot n ≤ (planeAt (pre ++ l) (supportIndexGo n l pre.length mx index)).v0.dot n := by
  induction l with
  | nil =>
    intro pre mx index h1 h2 h3 h4 h5
    simp only [List.append_nil] at *
    have hl := h3 h5
    refine ⟨hl, fun v hv => ?_⟩
    simp only [supportIndexGo]
    rw [h2 v hv _ rfl h5]
    exact h1 v hv
  | cons pl l ih =>
    intro pre mx index h1 h2 h3 h4 h5
    have hassoc : pre ++ pl :: l = (pre ++ [pl]) ++ l := by simp
    have hlen : pre.length + 1 = (pre ++ [pl]).length := by simp
    have hat : planeAt (pre ++ pl :: l) pre.length = pl := by simp [planeAt]
    simp only [supportIndexGo]
    split
    · rename_i hgt
      have := ih (pre ++ [pl]) (pl.v0.dot n) pre.length
        (by
          intro v hv
          rcases List.mem_append.1 hv with hv | hv
          · exact (h1 v hv).trans (le_of_lt hgt)
          · rw [List.mem_singleton.1 hv])
        (by intro v _ w hw _; rw [hw, ← hassoc, hat])
        (by intro _; simp) (by intro h; simp at h) (by simp)
      rw [← hassoc, ← hlen] at this
      exact this
    · rename_i hle
      have hpre : pre ≠ [] := by
        intro e
        exact hle ((h4 e).2 pl (by simp))
      have := ih (pre ++ [pl]) mx index
        (by
          intro v hv
          rcases List.mem_append.1 hv with hv | hv
          · exact h1 v hv
          · rw [List.mem_singleton.1 hv]; exact not_lt.1 hle)
        (by intro v hv w hw _; exact h2 v (by rw [hassoc]; exact hv) w (by rw [hassoc]; exact hw) hpre)
        (by intro _; have := h3 hpre; simp; omega) (by intro h; simp at h) (by simp)
      rw [← hassoc, ← hlen] at this
      exact this

/-- The index found by `PolySupportPointIndex` is in range and its vertex is farthest in the direction. -/
theorem polySupportIndex_spec (inf : K) (l : List (Plane K)) (n : V2 K) (hl : l ≠ []) (hinf : ∀ v ∈ l, -inf < v.v0.dot n) :
    polySupportIndex inf l n < l.length ∧ ∀ v ∈ l, v.v0.dot n ≤ (planeAt l (polySupportIndex inf l n)).v0.dot n := by
  have := supportIndexGo_spec n l [] (-inf) 0 (by simp) (by intro _ _ _ _ h; exact absurd rfl h) (by intro h; exact absurd rfl h)
    (fun _ => ⟨rfl, hinf⟩) (by simpa using hl)
  simpa [polySupportIndex] using this

theorem supportIndexGo_lt (n : V2 K) (l : List (Plane K)) : ∀ (i : Nat) (mx : K) (index N : Nat), index < N → i + l.length ≤ N →
    supportIndexGo n l i mx index < N := by
  induction l with
  | nil => intro i mx index N h _; exact h
  | cons pl l ih =>
    intro i mx index N h1 h2
    simp only [List.length_cons] at h2
    simp only [supportIndexGo]
    split
    · exact ih _ _ _ _ (by omega) (by omega)
    · exact ih _ _ _ _ h1 (by omega)

theorem polySupportIndex_lt (inf : K) (l : List (Plane K)) (n : V2 K) (hl : l ≠ []) : polySupportIndex inf l n < l.length :=
  supportIndexGo_lt n l 0 _ 0 _ (List.length_pos_iff.2 hl) (by simp)

theorem planeAt_mem (l : List (Plane K)) (i : Nat) (h : i < l.length) : planeAt l i ∈ l := by
  unfold planeAt
  rw [List.getD_eq_getElem?_getD, List.getElem?_eq_getElem h, Option.getD_some]
  exact List.getElem_mem h

/-- The support function returns a corner that is farthest in the direction. -/
theorem support_spec (inf : K) (s : Cls K) (n : V2 K) (hs : corners s ≠ []) :
    (s.support inf n).p ∈ corners s ∧ s.pointAt (s.support inf n).index = s.support inf n ∧
    ((∀ v ∈ corners s, -inf < v.dot n) → ∀ v ∈ corners s, v.dot n ≤ (s.support inf n).p.dot n) := by
  cases s with
  | circle c => simp [corners, Cls.support, Cls.pointAt]
  | segment g =>
    simp only [corners, Cls.support]
    split
    · rename_i h
      refine ⟨by simp, by simp [Cls.pointAt], fun _ v hv => ?_⟩
      rcases List.mem_pair.1 hv with rfl | rfl
      · exact le_refl _
      · exact le_of_lt h
    · rename_i h
      refine ⟨by simp, by simp [Cls.pointAt], fun _ v hv => ?_⟩
      rcases List.mem_pair.1 hv with rfl | rfl
      · exact not_lt.1 h
      · exact le_refl _
  | poly p =>
    have hl : p.world ≠ [] := by intro e; apply hs; simp [corners, e]
    have hlt := polySupportIndex_lt inf p.world n hl
    refine ⟨List.mem_map_of_mem (planeAt_mem _ _ hlt), by simp [Cls.support, Cls.pointAt, hlt], fun hinf v hv => ?_⟩
    obtain ⟨pl, hpl, rfl⟩ := List.mem_map.1 hv
    exact (polySupportIndex_spec inf p.world n hl (fun w hw => hinf _ (List.mem_map_of_mem hw))).2 pl hpl

theorem pointAt_mem (s : Cls K) (i : Nat) (hs : corners s ≠ []) :
    (s.pointAt i).p ∈ corners s ∧ s.pointAt (s.pointAt i).index = s.pointAt i := by
  cases s with
  | circle c => simp [corners, Cls.pointAt]
  | segment g =>
    simp only [corners, Cls.pointAt]
    split <;> simp [*]
  | poly p =>
    have hl : p.world ≠ [] := by intro e; apply hs; simp [corners, e]
    simp only [corners, Cls.pointAt]
    split
    · rename_i h; exact ⟨List.mem_map_of_mem (planeAt_mem _ _ h), by simp [h]⟩
    · exact ⟨List.mem_map_of_mem (planeAt_mem _ _ (List.length_pos_iff.2 hl)), by simp [List.length_pos_iff.2 hl]⟩

/-! ## Points on the Minkowski difference -/

/-- `x` is the difference of a point of the second shape and one of the first. -/
def Spec.InDiff (s1 s2 : Cls K) (x : V2 K) : Prop := ∃ a b, Core s1 a ∧ Core s2 b ∧ x = b.sub a

/-- A recorded Minkowski point is the difference of two corners. -/
def MOk (ctx : Ctx K) (v : MPoint K) : Prop := v.a ∈ corners ctx.s1 ∧ v.b ∈ corners ctx.s2 ∧ v.ab = v.b.sub v.a

theorem support_ok (inf : K) (ctx : Ctx K) (h1 : corners ctx.s1 ≠ []) (h2 : corners ctx.s2 ≠ []) (n : V2 K) :
    MOk ctx (ctx.support inf n) :=
  ⟨(support_spec inf ctx.s1 n.neg h1).1, (support_spec inf ctx.s2 n h2).1, rfl⟩

/-- The support point is farthest on the whole difference. -/
theorem support_max (inf B : K) (ctx : Ctx K) (h1 : corners ctx.s1 ≠ []) (h2 : corners ctx.s2 ≠ []) (n : V2 K)
    (hw1 : Within B ctx.s1) (hw2 : Within B ctx.s2) (hx : |n.x| ≤ 4 * B) (hy : |n.y| ≤ 4 * B) (hinf : 8 * (B * B) < inf)
    (x : V2 K) (hd : InDiff ctx.s1 ctx.s2 x) : x.dot n ≤ (ctx.support inf n).ab.dot n := by
  have key : ∀ (s : Cls K) (m : V2 K), Within B s → |m.x| ≤ 4 * B → |m.y| ≤ 4 * B → ∀ v ∈ corners s, -inf < v.dot m := by
    intro s m hw hmx hmy v hv
    obtain ⟨a, b⟩ := hw v hv
    have e1 : |v.x * m.x| ≤ B * (4 * B) := by
      rw [abs_mul]; exact mul_le_mul a hmx (abs_nonneg _) ((abs_nonneg _).trans a)
    have e2 : |v.y * m.y| ≤ B * (4 * B) := by
      rw [abs_mul]; exact mul_le_mul b hmy (abs_nonneg _) ((abs_nonneg _).trans b)
    have := neg_abs_le (v.x * m.x)
    have := neg_abs_le (v.y * m.y)
    simp only [V2.dot]
    linarith
  obtain ⟨a, b, ha, hb, rfl⟩ := hd
  rw [core_hull] at ha hb
  have ma := hull_dot_le _ n.neg _ ((support_spec inf ctx.s1 n.neg h1).2.2
    (key _ _ hw1 (by simpa [V2.neg] using hx) (by simpa [V2.neg] using hy))) a ha
  have mb := hull_dot_le _ n _ ((support_spec inf ctx.s2 n h2).2.2 (key _ _ hw2 hx hy)) b hb
  simp only [Ctx.support, MPoint.new]
  simp only [V2.dot, V2.sub, V2.neg] at *
  linarith

/-! ## The parameter of the nearest point of a segment to the origin -/

theorem lerpT_at (a b : V2 K) (t : K) : lerpT a b t = At a b ((1 + t) / 2) := by
  simp only [lerpT, At, V2.add, V2.scale]; ext <;> simp only <;> ring

theorem closestT_mem (a b : V2 K) : -1 ≤ closestT a b ∧ closestT a b ≤ 1 := by
  unfold closestT
  dsimp only
  split
  · constructor <;> linarith [zero_lt_one (α := K)]
  · have := clamp_mem ((b.sub a).dot (a.add b) / (b.sub a).lengthSq) (-1) 1 (by linarith [zero_lt_one (α := K)])
    constructor <;> linarith

theorem lengthSq_sub_pos {a b : V2 K} (h : (b.sub a).lengthSq ≠ 0) : 0 < (b.sub a).lengthSq :=
  lt_of_le_of_ne (lengthSq_nonneg _) (Ne.symm h)

/-- In the interior the nearest point is the foot of the perpendicular; at the ends the angle is not acute. -/
theorem closestT_spec (a b : V2 K) :
    (-1 < closestT a b → closestT a b < 1 → (b.sub a).lengthSq ≠ 0 ∧ (lerpT a b (closestT a b)).dot (b.sub a) = 0) ∧
    (closestT a b = -1 → a.dot a ≤ a.dot b) ∧ (closestT a b = 1 → b.dot b ≤ a.dot b) := by
  unfold closestT
  dsimp only
  by_cases h : (b.sub a).lengthSq = 0
  · rw [if_pos h]
    refine ⟨fun _ h' => absurd h' (lt_irrefl _), fun h' => absurd h' (by intro e; linarith [zero_lt_one (α := K)]), fun _ => ?_⟩
    have := lengthSq_eq_zero _ h
    simp only [V2.sub, V2.zero, V2.mk.injEq] at this
    have hx : b.x = a.x := sub_eq_zero.1 this.1
    have hy : b.y = a.y := sub_eq_zero.1 this.2
    simp only [V2.dot, hx, hy]; exact le_refl _
  · rw [if_neg h]
    have hp := lengthSq_sub_pos h
    set q := (b.sub a).dot (a.add b) / (b.sub a).lengthSq with hq
    have hqm : q * (b.sub a).lengthSq = (b.sub a).dot (a.add b) := div_mul_cancel₀ _ h
    refine ⟨fun h1 h2 => ⟨h, ?_⟩, fun h1 => ?_, fun h1 => ?_⟩
    · rw [clamp_inside q (-1) 1 (by linarith [zero_lt_one (α := K)]) (by linarith) (by linarith)]
      simp only [lerpT, V2.add, V2.scale, V2.sub, V2.dot, V2.lengthSq] at *
      linear_combination (-1/2 : K) * hqm
    · have hc : clamp q (-1) 1 = 1 := by linarith
      have : 1 ≤ q := by
        unfold clamp at hc
        split at hc
        · exact min_eq_right_iff.1 hc
        · rw [min_eq_left (by linarith [zero_lt_one (α := K)])] at hc; exfalso; linarith [zero_lt_one (α := K)]
      have := mul_le_mul_of_nonneg_right this (le_of_lt hp)
      rw [hqm] at this
      simp only [V2.add, V2.sub, V2.dot, V2.lengthSq] at *
      linarith
    · have hc : clamp q (-1) 1 = -1 := by linarith
      have : q ≤ -1 := by
        unfold clamp at hc
        split at hc
        · rename_i hgt
          rcases min_choice q 1 with e | e
          · rw [e] at hc; exact le_of_eq hc
          · rw [e] at hc; exfalso; linarith [zero_lt_one (α := K)]
        · rename_i hgt; exact not_lt.1 hgt
      have := mul_le_mul_of_nonneg_right this (le_of_lt hp)
      rw [hqm] at this
      simp only [V2.add, V2.sub, V2.dot, V2.lengthSq] at *
      linarith

/-! ## What `ClosestPoints` reports -/

theorem closest_in (M : Mth K) (ctx : Ctx K) (v0 v1 : MPoint K) (h0 : MOk ctx v0) (h1 : MOk ctx v1) :
    Core ctx.s1 (v0.closestPoints M v1).a ∧ Core ctx.s2 (v0.closestPoints M v1).b ∧
    (v0.closestPoints M v1).b.sub (v0.closestPoints M v1).a = lerpT v0.ab v1.ab (closestT v0.ab v1.ab) := by
  obtain ⟨t0, t1⟩ := closestT_mem v0.ab v1.ab
  have ha : (v0.closestPoints M v1).a = lerpT v0.a v1.a (closestT v0.ab v1.ab) := by unfold MPoint.closestPoints; dsimp only; split <;> rfl
  have hb : (v0.closestPoints M v1).b = lerpT v0.b v1.b (closestT v0.ab v1.ab) := by unfold MPoint.closestPoints; dsimp only; split <;> rfl
  rw [ha, hb]
  refine ⟨?_, ?_, ?_⟩
  · rw [core_hull, lerpT_at]; exact .mix _ _ _ (.vert _ h0.1) (.vert _ h1.1) (by linarith) (by linarith)
  · rw [core_hull, lerpT_at]; exact .mix _ _ _ (.vert _ h0.2.1) (.vert _ h1.2.1) (by linarith) (by linarith)
  · rw [h0.2.2, h1.2.2]
    simp only [lerpT, V2.add, V2.scale, V2.sub]; ext <;> simp only <;> ring

theorem unit_sq {M : Mth K} (hM : M.Lawful) (v : V2 K) (h : v ≠ V2.zero) : (v.unit M).lengthSq = 1 := by
  have := mag_scale_inv hM v h
  simp only [V2.unit, V2.lengthSq, V2.dot] at *
  linarith [this, sq (v.scale (1 / v.mag M)).x, sq (v.scale (1 / v.mag M)).y]

theorem unit_zero (M : Mth K) : (V2.zero : V2 K).unit M = V2.zero := by simp [V2.unit, V2.scale, V2.zero]

/-- The reported distance is the separation of the reported points along the reported normal, which is a unit vector unless the
two Minkowski points coincide, in which case normal and distance are zero. -/
theorem closest_n {M : Mth K} (hM : M.Lawful) (ctx : Ctx K) (v0 v1 : MPoint K) (h0 : MOk ctx v0) (h1 : MOk ctx v1) :
    ((v0.closestPoints M v1).b.sub (v0.closestPoints M v1).a).dot (v0.closestPoints M v1).n = (v0.closestPoints M v1).d ∧
    ((v0.closestPoints M v1).n.lengthSq = 1 ∨ (v0.closestPoints M v1).n = V2.zero ∧ (v0.closestPoints M v1).d = 0 ∧ v0.ab = v1.ab) := by
  rw [(closest_in M ctx v0 v1 h0 h1).2.2]
  unfold MPoint.closestPoints
  dsimp only
  set p := lerpT v0.ab v1.ab (closestT v0.ab v1.ab)
  set n := (v1.ab.sub v0.ab).rperp.unit M with hn
  split
  · refine ⟨by simp only [V2.dot]; ring, ?_⟩
    by_cases hz : (v1.ab.sub v0.ab).rperp = V2.zero
    · right
      have hn0 : n = V2.zero := by rw [hn, hz, unit_zero]
      refine ⟨hn0, by rw [hn0]; simp [V2.dot, V2.zero], ?_⟩
      simp only [V2.rperp, V2.sub, V2.zero, V2.mk.injEq] at hz
      ext
      · linarith [hz.2]
      · linarith [hz.1]
    · left; exact unit_sq hM _ hz
  · rename_i hc
    rw [not_or] at hc
    have hp : p ≠ V2.zero := by
      intro e
      apply hc.1
      rw [e]; simp [V2.dot, V2.zero]
    have hm : p.mag M ≠ 0 := fun e => hp (mag_eq_zero hM p e)
    have hsq := mag_sq hM p
    refine ⟨?_, Or.inl ?_⟩
    · simp only [V2.dot, V2.scale, V2.lengthSq] at *
      field_simp
      linear_combination -hsq
    · have := unit_sq hM p hp
      exact this

/-! ## Why the search stops -/

/-- What is known when the search of GJK is given up because no point of the difference lies beyond. -/
def GjkDone (inf : K) (ctx : Ctx K) (v0 v1 : MPoint K) : Prop :=
  0 ≤ v0.ab.cross v1.ab ∧
  let t := closestT v0.ab v1.ab
  let n := if -1 < t ∧ t < 1 then (v1.ab.sub v0.ab).perp else (lerpT v0.ab v1.ab t).neg
  checkAxis v0.ab v1.ab (ctx.support inf n).ab n = true

/-- What is known when the search of EPA ends at an edge. -/
def EpaDone (inf : K) (ctx : Ctx K) (v0 v1 : MPoint K) : Prop :=
  let p := ctx.support inf (v1.ab.sub v0.ab).perp
  p.id = v0.id ∨ p.id = v1.id ∨ pointGreater v0.ab v1.ab p.ab = false

/-- The result comes from two Minkowski points with the property `P`, and satisfies the condition of its reason to stop. -/
def From (M : Mth K) (inf : K) (ctx : Ctx K) (P : MPoint K → Prop) (r : Closest K × Stop) : Prop :=
  ∃ v0 v1, P v0 ∧ P v1 ∧ r.1 = v0.closestPoints M v1 ∧ (r.2 = .gjkDone → GjkDone inf ctx v0 v1) ∧
    (r.2 = .epaDone → EpaDone inf ctx v0 v1) ∧
    (r.2 = .epaDone → ∃ u0 u1 u2, P u0 ∧ P u1 ∧ P u2 ∧ 0 ≤ u0.ab.cross u2.ab ∧ 0 < u1.ab.cross u0.ab ∧ 0 < u2.ab.cross u1.ab)

theorem epaScanGo_lt (l : List (MPoint K)) : ∀ (prev : MPoint K) (i j : Nat) (md : K) (mini N : Nat),
    mini < N → i < N → j + l.length ≤ N → epaScanGo prev i j l md mini < N := by
  induction l with
  | nil => intro prev i j md mini N h _ _; exact h
  | cons h l ih =>
    intro prev i j md mini N h1 h2 h3
    simp only [List.length_cons] at h3
    simp only [epaScanGo]
    split
    · exact ih _ _ _ _ _ _ h2 (by omega) (by omega)
    · exact ih _ _ _ _ _ _ h1 (by omega) (by omega)

theorem epaScan_lt (inf : K) (hull : List (MPoint K)) (h : hull ≠ []) : epaScan inf hull < hull.length := by
  have := List.length_pos_iff.2 h
  exact epaScanGo_lt hull _ _ _ _ _ _ this (by omega) (by omega)

theorem epaRebuild_mem (p : MPoint K) (l : List (MPoint K)) : ∀ h0 x, x ∈ epaRebuild p h0 l → x ∈ l := by
  induction l with
  | nil => intro h0 x h; exact h
  | cons h1 l ih =>
    intro h0 x h
    simp only [epaRebuild] at h
    split at h
    · rcases List.mem_cons.1 h with rfl | h
      · exact List.mem_cons_self
      · exact List.mem_cons_of_mem _ (ih _ _ h)
    · exact List.mem_cons_of_mem _ (ih _ _ h)

theorem hullAt_mem (l : List (MPoint K)) (i : Nat) (h : i < l.length) : hullAt l i ∈ l := by
  unfold hullAt
  rw [List.getD_eq_getElem?_getD, List.getElem?_eq_getElem h, Option.getD_some]
  exact List.getElem_mem h

theorem epaRecurse_from (M : Mth K) (inf : K) (ctx : Ctx K) (P : MPoint K → Prop) (hP : ∀ n, P (ctx.support inf n))
    (hZ : ∃ u0 u1 u2, P u0 ∧ P u1 ∧ P u2 ∧ 0 ≤ u0.ab.cross u2.ab ∧ 0 < u1.ab.cross u0.ab ∧ 0 < u2.ab.cross u1.ab) (fuel : Nat) :
    ∀ hull : List (MPoint K), hull ≠ [] → (∀ x ∈ hull, P x) →
      From M inf ctx P (epaRecurse M inf ctx fuel hull) := by
  induction fuel with
  | zero =>
    intro hull hne hall
    have hm := epaScan_lt inf hull hne
    have hm' : (epaScan inf hull + 1) % hull.length < hull.length := Nat.mod_lt _ (List.length_pos_iff.2 hne)
    rw [epaRecurse]
    split
    · exact ⟨_, _, hall _ (hullAt_mem _ _ hm), hall _ (hullAt_mem _ _ hm'), rfl, by simp, by simp, by simp⟩
    · rename_i hc
      refine ⟨_, _, hall _ (hullAt_mem _ _ hm), hall _ (hullAt_mem _ _ hm'), rfl, by simp, fun _ => ?_, fun _ => hZ⟩
      simp only [EpaDone]
      rw [not_and_or, not_not, Bool.not_eq_true, or_assoc] at hc
      exact hc
  | succ fuel ih =>
    intro hull hne hall
    have hm := epaScan_lt inf hull hne
    have hm' : (epaScan inf hull + 1) % hull.length < hull.length := Nat.mod_lt _ (List.length_pos_iff.2 hne)
    rw [epaRecurse]
    split
    · apply ih _ (by simp)
      intro x hx
      rcases List.mem_cons.1 hx with rfl | hx
      · exact hP _
      · exact hall _ (List.mem_rotate.1 (epaRebuild_mem _ _ _ _ hx))
    · rename_i hc
      refine ⟨_, _, hall _ (hullAt_mem _ _ hm), hall _ (hullAt_mem _ _ hm'), rfl, by simp, fun _ => ?_, fun _ => hZ⟩
      simp only [EpaDone]
      rw [not_and_or, not_not, Bool.not_eq_true, or_assoc] at hc
      exact hc

theorem gjkRecurse_from (M : Mth K) (inf : K) (ctx : Ctx K) (P : MPoint K → Prop) (hP : ∀ n, P (ctx.support inf n)) (fuel : Nat) :
    ∀ w0 w1, P w0 → P w1 → From M inf ctx P (gjkRecurse M inf ctx fuel w0 w1) := by
  induction fuel with
  | zero => intro w0 w1 h0 h1; exact ⟨w0, w1, h0, h1, rfl, by simp [gjkRecurse], by simp [gjkRecurse], by simp [gjkRecurse]⟩
  | succ fuel ih =>
    intro w0 w1 h0 h1
    rw [gjkRecurse]
    have hcr : 0 ≤ (if pointGreater w1.ab w0.ab V2.zero = true then w1 else w0).ab.cross
        (if pointGreater w1.ab w0.ab V2.zero = true then w0 else w1).ab := by
      split
      · rename_i h; exact le_of_lt ((pointGreater_zero _ _).1 h)
      · rename_i h
        rw [pointGreater_zero] at h
        simp only [V2.cross] at *
        linarith
    have hv0 : P (if pointGreater w1.ab w0.ab V2.zero = true then w1 else w0) := by split <;> assumption
    have hv1 : P (if pointGreater w1.ab w0.ab V2.zero = true then w0 else w1) := by split <;> assumption
    generalize (if pointGreater w1.ab w0.ab V2.zero = true then w1 else w0) = v0 at hcr hv0 ⊢
    generalize (if pointGreater w1.ab w0.ab V2.zero = true then w0 else w1) = v1 at hcr hv1 ⊢
    generalize hn : (if -1 < closestT v0.ab v1.ab ∧ closestT v0.ab v1.ab < 1 then (v1.ab.sub v0.ab).perp
      else (lerpT v0.ab v1.ab (closestT v0.ab v1.ab)).neg) = n
    split
    · rename_i hin
      rw [Bool.and_eq_true, pointGreater_zero, pointGreater_zero] at hin
      refine epaRecurse_from M inf ctx P hP ⟨v0, _, v1, hv0, hP _, hv1, hcr, hin.1, hin.2⟩ _ _ (by simp) ?_
      intro x hx
      simp only [List.mem_cons, List.not_mem_nil, or_false] at hx
      rcases hx with rfl | rfl | rfl
      · exact hv0
      · exact hP _
      · exact hv1
    · split
      · rename_i hc
        exact ⟨v0, v1, hv0, hv1, rfl, fun _ => ⟨hcr, by dsimp only; rw [hn]; exact hc⟩, by simp, by simp⟩
      · split
        · exact ih _ _ hv0 (hP _)
        · exact ih _ _ (hP _) hv1

theorem gjk_from (M : Mth K) (inf : K) (ctx : Ctx K) (id : Nat) (P : MPoint K → Prop) (hP : ∀ n, P (ctx.support inf n))
    (hQ : ∀ i j, i < 256 → j < 256 → P (MPoint.new (ctx.s1.pointAt i) (ctx.s2.pointAt j))) : From M inf ctx P (gjk M inf ctx id) := by
  unfold gjk
  dsimp only
  apply gjkRecurse_from M inf ctx P hP
  · unfold gjkStart; split
    · exact hQ _ _ (Nat.mod_lt _ (by decide)) (Nat.mod_lt _ (by decide))
    · exact hP _
  · unfold gjkStart; split
    · exact hQ _ _ (Nat.mod_lt _ (by decide)) (Nat.mod_lt _ (by decide))
    · exact hP _

/-! ## C45 -/

/-- Two shapes with at least one corner. -/
def Spec.Solid (ctx : Ctx K) : Prop := corners ctx.s1 ≠ [] ∧ corners ctx.s2 ≠ []

/-- **C45.** Whatever the starting guess and the reason to stop: the reported points belong to the two shapes, and the reported
distance is their separation along the reported normal. The normal is a unit vector or, with distance zero, the zero vector. -/
theorem C45_points {M : Mth K} (hM : M.Lawful) (inf : K) (ctx : Ctx K) (hs : Solid ctx) (id : Nat) :
    Core ctx.s1 (gjk M inf ctx id).1.a ∧ Core ctx.s2 (gjk M inf ctx id).1.b ∧
    ((gjk M inf ctx id).1.b.sub (gjk M inf ctx id).1.a).dot (gjk M inf ctx id).1.n = (gjk M inf ctx id).1.d ∧
    ((gjk M inf ctx id).1.n.lengthSq = 1 ∨ (gjk M inf ctx id).1.n = V2.zero ∧ (gjk M inf ctx id).1.d = 0) := by
  obtain ⟨v0, v1, h0, h1, e, -⟩ := gjk_from M inf ctx id (MOk ctx) (support_ok inf ctx hs.1 hs.2)
    (fun i j _ _ => ⟨(pointAt_mem ctx.s1 i hs.1).1, (pointAt_mem ctx.s2 j hs.2).1, rfl⟩)
  rw [e]
  have hc := closest_in M ctx v0 v1 h0 h1
  have hn := closest_n hM ctx v0 v1 h0 h1
  exact ⟨hc.1, hc.2.1, hn.1, hn.2.imp (fun h => h) fun h => ⟨h.1, h.2.1⟩⟩

theorem mok_within (B : K) (ctx : Ctx K) (hw1 : Within B ctx.s1) (hw2 : Within B ctx.s2) (v : MPoint K) (h : MOk ctx v) :
    |v.ab.x| ≤ 2 * B ∧ |v.ab.y| ≤ 2 * B := by
  obtain ⟨a1, a2⟩ := hw1 _ h.1
  obtain ⟨b1, b2⟩ := hw2 _ h.2.1
  rw [h.2.2]
  simp only [V2.sub]
  rw [abs_le] at a1 a2 b1 b2
  rw [abs_le, abs_le]
  refine ⟨⟨?_, ?_⟩, ?_, ?_⟩ <;> linarith [a1.1, a1.2, a2.1, a2.2, b1.1, b1.2, b2.1, b2.2]

/-- At the end of GJK the last nearest point is nearest to the origin of the whole difference. -/
theorem gjkDone_min (inf B : K) (ctx : Ctx K) (hs : Solid ctx) (hw1 : Within B ctx.s1) (hw2 : Within B ctx.s2)
    (hinf : 8 * (B * B) < inf) (v0 v1 : MPoint K) (h0 : MOk ctx v0) (h1 : MOk ctx v1) (hd : GjkDone inf ctx v0 v1)
    (x : V2 K) (hx : InDiff ctx.s1 ctx.s2 x) :
    (lerpT v0.ab v1.ab (closestT v0.ab v1.ab)).lengthSq ≤ x.lengthSq := by
  obtain ⟨hcr, hax⟩ := hd
  obtain ⟨b0x, b0y⟩ := mok_within B ctx hw1 hw2 v0 h0
  obtain ⟨b1x, b1y⟩ := mok_within B ctx hw1 hw2 v1 h1
  obtain ⟨tm, tM⟩ := closestT_mem v0.ab v1.ab
  obtain ⟨s1, s2, s3⟩ := closestT_spec v0.ab v1.ab
  set t := closestT v0.ab v1.ab with ht
  dsimp only at hax
  rw [abs_le] at b0x b0y b1x b1y
  split at hax
  · rename_i hin
    obtain ⟨hne, hperp⟩ := s1 hin.1 hin.2
    have hmax := support_max inf B ctx hs.1 hs.2 (v1.ab.sub v0.ab).perp hw1 hw2
      (by simp only [V2.perp, V2.sub]; rw [abs_le]; constructor <;> linarith [b0y.1, b0y.2, b1y.1, b1y.2])
      (by simp only [V2.perp, V2.sub]; rw [abs_le]; constructor <;> linarith [b0x.1, b0x.2, b1x.1, b1x.2]) hinf x hx
    simp only [checkAxis, decide_eq_true_eq] at hax
    have e1 : v1.ab.dot (v1.ab.sub v0.ab).perp = v0.ab.dot (v1.ab.sub v0.ab).perp := by simp only [V2.dot, V2.perp, V2.sub]; ring
    have e0 : v0.ab.dot (v1.ab.sub v0.ab).perp = -(v0.ab.cross v1.ab) := by simp only [V2.dot, V2.perp, V2.sub, V2.cross]; ring
    rw [e1, max_self] at hax
    have hle := hmax.trans hax
    set q := lerpT v0.ab v1.ab t with hq
    have eq' : q.dot (v1.ab.sub v0.ab).perp = v0.ab.dot (v1.ab.sub v0.ab).perp := by
      simp only [hq, lerpT, V2.dot, V2.perp, V2.sub, V2.add, V2.scale]; ring
    have hpos := lengthSq_sub_pos hne
    have id1 : ∀ y : V2 K, y.lengthSq * (v1.ab.sub v0.ab).lengthSq = y.dot (v1.ab.sub v0.ab) ^ 2 + y.dot (v1.ab.sub v0.ab).perp ^ 2 := by
      intro y; simp only [V2.lengthSq, V2.dot, V2.perp, V2.sub]; ring
    have f1 := id1 q
    rw [hperp, eq'] at f1
    have f2 := id1 x
    have hsq : v0.ab.dot (v1.ab.sub v0.ab).perp ^ 2 ≤ x.dot (v1.ab.sub v0.ab).perp ^ 2 := by
      rw [e0] at hle ⊢
      nlinarith
    have : q.lengthSq * (v1.ab.sub v0.ab).lengthSq ≤ x.lengthSq * (v1.ab.sub v0.ab).lengthSq := by
      rw [f1, f2]
      nlinarith [sq_nonneg (x.dot (v1.ab.sub v0.ab))]
    exact le_of_mul_le_mul_right this hpos
  · rename_i hin
    set q := lerpT v0.ab v1.ab t with hq
    have hqb : |q.x| ≤ 2 * B ∧ |q.y| ≤ 2 * B := by
      have ex : q.x = v0.ab.x * ((1 - t) / 2) + v1.ab.x * ((1 + t) / 2) := by simp only [hq, lerpT, V2.add, V2.scale]; ring
      have ey : q.y = v0.ab.y * ((1 - t) / 2) + v1.ab.y * ((1 + t) / 2) := by simp only [hq, lerpT, V2.add, V2.scale]; ring
      rw [ex, ey, abs_le, abs_le]
      have c0 : 0 ≤ (1 - t) / 2 := by linarith
      have c1 : 0 ≤ (1 + t) / 2 := by linarith
      have cs : (1 - t) / 2 + (1 + t) / 2 = 1 := by ring
      have g : ∀ u w : K, -(2 * B) ≤ u → u ≤ 2 * B → -(2 * B) ≤ w → w ≤ 2 * B →
          -(2 * B) ≤ u * ((1 - t) / 2) + w * ((1 + t) / 2) ∧ u * ((1 - t) / 2) + w * ((1 + t) / 2) ≤ 2 * B := by
        intro u w u1 u2 w1 w2
        generalize (1 - t) / 2 = c at c0 cs ⊢
        generalize (1 + t) / 2 = e at c1 cs ⊢
        have hc : c = 1 - e := by linarith
        subst hc
        constructor <;> nlinarith
      exact ⟨g _ _ b0x.1 b0x.2 b1x.1 b1x.2, g _ _ b0y.1 b0y.2 b1y.1 b1y.2⟩
    rw [abs_le, abs_le] at hqb
    have hB : 0 ≤ B := by linarith [hqb.1.1, hqb.1.2]
    have hmax := support_max inf B ctx hs.1 hs.2 q.neg hw1 hw2
      (by simp only [V2.neg]; rw [abs_le]; constructor <;> linarith [hqb.1.1, hqb.1.2])
      (by simp only [V2.neg]; rw [abs_le]; constructor <;> linarith [hqb.2.1, hqb.2.2]) hinf x hx
    simp only [checkAxis, decide_eq_true_eq] at hax
    have hle := hmax.trans hax
    have hend : t = -1 ∨ t = 1 := by
      by_contra hcon
      rw [not_or] at hcon
      exact hin ⟨lt_of_le_of_ne tm (Ne.symm hcon.1), lt_of_le_of_ne tM hcon.2⟩
    have hkey : q.dot q ≤ x.dot q := by
      have hm : max (v0.ab.dot q.neg) (v1.ab.dot q.neg) ≤ -(q.dot q) := by
        rcases hend with e | e
        · have hqv : q = v0.ab := by rw [hq, e]; simp only [lerpT, V2.add, V2.scale]; ext <;> simp only <;> ring
          have := s2 e
          rw [hqv]
          simp only [V2.dot, V2.neg] at *
          exact max_le (by linarith) (by linarith)
        · have hqv : q = v1.ab := by rw [hq, e]; simp only [lerpT, V2.add, V2.scale]; ext <;> simp only <;> ring
          have := s3 e
          rw [hqv]
          simp only [V2.dot, V2.neg] at *
          exact max_le (by linarith) (by linarith)
      have := hle.trans hm
      simp only [V2.dot, V2.neg] at *
      linarith
    have hsq := lengthSq_nonneg (x.sub q)
    simp only [V2.lengthSq, V2.dot, V2.sub] at *
    nlinarith

/-- **C45.** When GJK stops because nothing lies beyond its last edge, the reported points are a nearest pair of points of the two
shapes. The reported distance is their distance, along the reported normal, or it is zero (see `C45_collinear` for when this is wrong). -/
theorem C45_gjk_partial {M : Mth K} (hM : M.Lawful) (inf B : K) (ctx : Ctx K) (hs : Solid ctx) (hw1 : Within B ctx.s1) (hw2 : Within B ctx.s2)
    (hinf : 8 * (B * B) < inf) (id : Nat) (c : Closest K) (hstop : gjk M inf ctx id = (c, .gjkDone)) :
    (∀ x y, Core ctx.s1 x → Core ctx.s2 y → dist M c.a c.b ≤ dist M x y) ∧
    ((c.d = dist M c.a c.b ∧ c.b.sub c.a = c.n.scale c.d) ∨ c.d = 0) := by
  obtain ⟨v0, v1, h0, h1, e, hg, -⟩ := gjk_from M inf ctx id (MOk ctx) (support_ok inf ctx hs.1 hs.2)
    (fun i j _ _ => ⟨(pointAt_mem ctx.s1 i hs.1).1, (pointAt_mem ctx.s2 j hs.2).1, rfl⟩)
  rw [hstop] at e hg
  have hg := hg rfl
  simp only at e
  have hin := closest_in M ctx v0 v1 h0 h1
  rw [← e] at hin
  have hd2 : ∀ x y : V2 K, dist2 x y = (y.sub x).lengthSq := by intro x y; simp only [dist2, V2.lengthSq, V2.dot, V2.sub]; ring
  refine ⟨fun x y hx hy => ?_, ?_⟩
  · rw [dist_le_dist hM, hd2, hd2, hin.2.2]
    exact gjkDone_min inf B ctx hs hw1 hw2 hinf v0 v1 h0 h1 hg _ ⟨x, y, hx, hy, rfl⟩
  · have hcr := hg.1
    obtain ⟨s1, s2, s3⟩ := closestT_spec v0.ab v1.ab
    have hcross : ∀ q, q = lerpT v0.ab v1.ab (closestT v0.ab v1.ab) → (v1.ab.sub v0.ab).rperp.dot q = v0.ab.cross v1.ab := by
      rintro q rfl; simp only [lerpT, V2.dot, V2.rperp, V2.sub, V2.add, V2.scale, V2.cross]; ring
    have hdn : 0 ≤ ((v1.ab.sub v0.ab).rperp.unit M).dot (lerpT v0.ab v1.ab (closestT v0.ab v1.ab)) := by
      have : ((v1.ab.sub v0.ab).rperp.unit M).dot (lerpT v0.ab v1.ab (closestT v0.ab v1.ab)) =
          (v1.ab.sub v0.ab).rperp.dot (lerpT v0.ab v1.ab (closestT v0.ab v1.ab)) * (1 / (v1.ab.sub v0.ab).rperp.mag M) := by
        simp only [V2.unit, V2.scale, V2.dot]; ring
      rw [this, hcross _ rfl]
      exact mul_nonneg hcr (one_div_nonneg.2 (mag_nonneg hM _))
    set q := lerpT v0.ab v1.ab (closestT v0.ab v1.ab) with hq
    have hexact : 0 ≤ c.d → q = c.n.scale c.d → c.n.lengthSq = 1 → (c.d = dist M c.a c.b ∧ c.b.sub c.a = c.n.scale c.d) := by
      intro h1 h2 h3
      refine ⟨?_, by rw [hin.2.2, h2]⟩
      symm
      apply dist_eq_of_sq hM _ _ _ h1
      rw [hd2, hin.2.2, h2]
      simp only [V2.lengthSq, V2.dot, V2.scale] at *
      linear_combination c.d * c.d * h3
    unfold MPoint.closestPoints at e
    dsimp only at e
    rw [← hq] at e
    split at e
    · rename_i hc
      by_cases hint : -1 < closestT v0.ab v1.ab ∧ closestT v0.ab v1.ab < 1
      · left
        obtain ⟨hne, hperp⟩ := s1 hint.1 hint.2
        have hr0 : (v1.ab.sub v0.ab).rperp ≠ V2.zero := by
          intro h
          apply hne
          simp only [V2.rperp, V2.zero, V2.mk.injEq] at h
          simp only [V2.lengthSq, V2.dot, h.1, neg_eq_zero.1 h.2]; ring
        have hu := unit_sq hM _ hr0
        rw [e] at hexact ⊢
        apply hexact hdn _ hu
        simp only
        have hm : (v1.ab.sub v0.ab).rperp.mag M ≠ 0 := fun h => hr0 (mag_eq_zero hM _ h)
        have hpu : q.dot ((v1.ab.sub v0.ab).rperp.unit M).perp = 0 := by
          have : q.dot ((v1.ab.sub v0.ab).rperp.unit M).perp = q.dot (v1.ab.sub v0.ab) * (1 / (v1.ab.sub v0.ab).rperp.mag M) := by
            simp only [V2.unit, V2.scale, V2.dot, V2.perp, V2.rperp]; ring
          rw [this, hperp, zero_mul]
        generalize (v1.ab.sub v0.ab).rperp.unit M = u at hu hpu
        simp only [V2.lengthSq, V2.dot, V2.perp, V2.scale] at *
        ext
        · simp only; linear_combination (-q.x) * hu + (-u.y) * hpu
        · simp only; linear_combination (-q.y) * hu + u.x * hpu
      · right
        rcases hc with hc | hc
        · rw [e]; exact le_antisymm hc hdn
        · exact absurd hc hint
    · rename_i hc
      left
      rw [not_or] at hc
      have hp : q ≠ V2.zero := by
        intro e0
        apply hc.1
        rw [e0]; simp [V2.dot, V2.zero]
      have hm : q.mag M ≠ 0 := fun h => hp (mag_eq_zero hM q h)
      rw [e] at hexact ⊢
      apply hexact (mag_nonneg hM q) _ (unit_sq hM q hp)
      simp only [V2.scale]
      ext <;> simp only <;> field_simp

/-- The difference of two shapes is convex. -/
theorem inDiff_mix (s1 s2 : Cls K) (x y : V2 K) (hx : InDiff s1 s2 x) (hy : InDiff s1 s2 y) (t : K) (h0 : 0 ≤ t) (h1 : t ≤ 1) :
    InDiff s1 s2 (At x y t) := by
  obtain ⟨a, b, ha, hb, rfl⟩ := hx
  obtain ⟨a', b', ha', hb', rfl⟩ := hy
  rw [core_hull] at ha hb ha' hb'
  refine ⟨At a a' t, At b b' t, (core_hull _ _).2 (.mix _ _ t ha ha' h0 h1), (core_hull _ _).2 (.mix _ _ t hb hb' h0 h1), ?_⟩
  simp only [At, V2.sub]; ext <;> simp only <;> ring

theorem mok_diff (ctx : Ctx K) (v : MPoint K) (h : MOk ctx v) : InDiff ctx.s1 ctx.s2 v.ab :=
  ⟨v.a, v.b, (core_hull _ _).2 (.vert _ h.1), (core_hull _ _).2 (.vert _ h.2.1), h.2.2⟩

/-- A triangle around the origin contains it. -/
theorem triangle_origin (s1 s2 : Cls K) (u0 u1 u2 : V2 K) (h0 : InDiff s1 s2 u0) (h1 : InDiff s1 s2 u1) (h2 : InDiff s1 s2 u2)
    (c1 : 0 ≤ u0.cross u2) (c2 : 0 < u1.cross u0) (c3 : 0 < u2.cross u1) : InDiff s1 s2 V2.zero := by
  have hs : 0 < u2.cross u1 + u1.cross u0 := by linarith
  have ht : 0 < u0.cross u2 + (u2.cross u1 + u1.cross u0) := by linarith
  have m1 := inDiff_mix s1 s2 u0 u2 h0 h2 (u1.cross u0 / (u2.cross u1 + u1.cross u0)) (by positivity)
    ((div_le_one hs).2 (by linarith))
  have m2 := inDiff_mix s1 s2 _ u1 m1 h1 (u0.cross u2 / (u0.cross u2 + (u2.cross u1 + u1.cross u0))) (by positivity)
    ((div_le_one ht).2 (by linarith))
  convert m2 using 1
  have e1 := ne_of_gt hs
  have e2 := ne_of_gt ht
  generalize hS : u2.cross u1 + u1.cross u0 = S at *
  generalize hT : u0.cross u2 + S = T at *
  simp only [V2.cross] at *
  simp only [At, V2.zero]
  ext
  · simp only
    field_simp
    subst hT
    subst hS
    ring
  · simp only
    field_simp
    subst hT
    subst hS
    ring

/-- The identifier of a Minkowski point tells its two corners. -/
def IdOk (ctx : Ctx K) (v : MPoint K) : Prop :=
  MOk ctx v ∧ v.a = (ctx.s1.pointAt (v.id / 256)).p ∧ v.b = (ctx.s2.pointAt (v.id % 256)).p

theorem index_lt (inf : K) (s : Cls K) (n : V2 K) (hs : corners s ≠ []) (h256 : (corners s).length ≤ 256) :
    (s.support inf n).index < 256 := by
  cases s with
  | circle c => simp [Cls.support]
  | segment g => simp only [Cls.support]; split <;> simp
  | poly p =>
    have hl : p.world ≠ [] := by intro e; apply hs; simp [corners, e]
    have := polySupportIndex_lt inf p.world n hl
    simp only [corners, List.length_map] at h256
    simp only [Cls.support]; omega

theorem pointAt_lt (s : Cls K) (i : Nat) (hi : i < 256) : (s.pointAt i).index < 256 := by
  cases s with
  | circle c => simp [Cls.pointAt]
  | segment g => simp only [Cls.pointAt]; split <;> exact hi
  | poly p => simp only [Cls.pointAt]; split <;> simp [hi]

theorem new_idOk (ctx : Ctx K) (a b : SupportPoint K) (ha : a.p ∈ corners ctx.s1) (hb : b.p ∈ corners ctx.s2)
    (ea : ctx.s1.pointAt a.index = a) (eb : ctx.s2.pointAt b.index = b) (la : a.index < 256) (lb : b.index < 256) :
    IdOk ctx (MPoint.new a b) := by
  have h1 : (MPoint.new a b).id / 256 = a.index := by simp only [MPoint.new]; omega
  have h2 : (MPoint.new a b).id % 256 = b.index := by simp only [MPoint.new]; omega
  refine ⟨⟨ha, hb, rfl⟩, ?_, ?_⟩
  · rw [h1, ea]; rfl
  · rw [h2, eb]; rfl

/-- **C45.** When EPA stops at an edge, the shapes overlap and the reported distance, which is not positive, is the exact separation of
the two shapes along the reported normal: no two points are separated less, and the reported points are separated just so. -/
theorem C45_epa {M : Mth K} (hM : M.Lawful) (inf B : K) (ctx : Ctx K) (hs : Solid ctx) (hw1 : Within B ctx.s1) (hw2 : Within B ctx.s2)
    (hinf : 8 * (B * B) < inf) (hc1 : (corners ctx.s1).length ≤ 256) (hc2 : (corners ctx.s2).length ≤ 256)
    (id : Nat) (c : Closest K) (hstop : gjk M inf ctx id = (c, .epaDone)) :
    (∃ x, Core ctx.s1 x ∧ Core ctx.s2 x) ∧ c.d ≤ 0 ∧
    (∀ x y, Core ctx.s1 x → Core ctx.s2 y → c.d ≤ (y.sub x).dot c.n) ∧ (c.b.sub c.a).dot c.n = c.d := by
  obtain ⟨v0, v1, h0, h1, e, -, he, htri⟩ := gjk_from M inf ctx id (IdOk ctx)
    (fun n => new_idOk ctx _ _ (support_spec inf ctx.s1 n.neg hs.1).1 (support_spec inf ctx.s2 n hs.2).1
      (support_spec inf ctx.s1 n.neg hs.1).2.1 (support_spec inf ctx.s2 n hs.2).2.1 (index_lt inf _ _ hs.1 hc1) (index_lt inf _ _ hs.2 hc2))
    (fun i j hi hj => new_idOk ctx _ _ (pointAt_mem ctx.s1 i hs.1).1 (pointAt_mem ctx.s2 j hs.2).1
      (pointAt_mem ctx.s1 i hs.1).2 (pointAt_mem ctx.s2 j hs.2).2 (pointAt_lt _ _ hi) (pointAt_lt _ _ hj))
  rw [hstop] at e he htri
  have he := he rfl
  obtain ⟨u0, u1, u2, p0, p1, p2, k1, k2, k3⟩ := htri rfl
  simp only at e
  have horigin := triangle_origin ctx.s1 ctx.s2 _ _ _ (mok_diff ctx u0 p0.1) (mok_diff ctx u1 p1.1) (mok_diff ctx u2 p2.1) k1 k2 k3
  obtain ⟨b0x, b0y⟩ := mok_within B ctx hw1 hw2 v0 h0.1
  obtain ⟨b1x, b1y⟩ := mok_within B ctx hw1 hw2 v1 h1.1
  rw [abs_le] at b0x b0y b1x b1y
  set p := ctx.support inf (v1.ab.sub v0.ab).perp with hp
  have hpok : IdOk ctx p := new_idOk ctx _ _ (support_spec inf ctx.s1 _ hs.1).1 (support_spec inf ctx.s2 _ hs.2).1
      (support_spec inf ctx.s1 _ hs.1).2.1 (support_spec inf ctx.s2 _ hs.2).2.1 (index_lt inf _ _ hs.1 hc1) (index_lt inf _ _ hs.2 hc2)
  have hsame : ∀ v : MPoint K, IdOk ctx v → p.id = v.id → p.ab = v.ab := by
    intro v hv hid
    rw [hpok.1.2.2, hv.1.2.2, hpok.2.1, hpok.2.2, hv.2.1, hv.2.2, hid]
  have e1 : v1.ab.dot (v1.ab.sub v0.ab).perp = v0.ab.dot (v1.ab.sub v0.ab).perp := by simp only [V2.dot, V2.perp, V2.sub]; ring
  have hple : p.ab.dot (v1.ab.sub v0.ab).perp ≤ v0.ab.dot (v1.ab.sub v0.ab).perp := by
    rcases he with h | h | h
    · rw [hsame v0 h0 h]
    · rw [hsame v1 h1 h, e1]
    · rw [Bool.eq_false_iff, ne_eq, pointGreater_iff, not_lt] at h
      simp only [V2.dot] at *
      linarith
  have hall : ∀ x, InDiff ctx.s1 ctx.s2 x → (v1.ab.sub v0.ab).rperp.dot v0.ab ≤ (v1.ab.sub v0.ab).rperp.dot x := by
    intro x hx
    have hmax := support_max inf B ctx hs.1 hs.2 (v1.ab.sub v0.ab).perp hw1 hw2
      (by simp only [V2.perp, V2.sub]; rw [abs_le]; constructor <;> linarith [b0y.1, b0y.2, b1y.1, b1y.2])
      (by simp only [V2.perp, V2.sub]; rw [abs_le]; constructor <;> linarith [b0x.1, b0x.2, b1x.1, b1x.2]) hinf x hx
    have := hmax.trans hple
    simp only [V2.dot, V2.perp, V2.rperp] at *
    linarith
  set k := 1 / (v1.ab.sub v0.ab).rperp.mag M with hk
  have hk0 : 0 ≤ k := one_div_nonneg.2 (mag_nonneg hM _)
  have hunit : ∀ x, ((v1.ab.sub v0.ab).rperp.unit M).dot x = (v1.ab.sub v0.ab).rperp.dot x * k := by
    intro x; simp only [V2.unit, V2.scale, V2.dot, hk]; ring
  have hq : (v1.ab.sub v0.ab).rperp.dot (lerpT v0.ab v1.ab (closestT v0.ab v1.ab)) = (v1.ab.sub v0.ab).rperp.dot v0.ab := by
    simp only [lerpT, V2.dot, V2.rperp, V2.sub, V2.add, V2.scale]; ring
  have hneg : ((v1.ab.sub v0.ab).rperp.unit M).dot (lerpT v0.ab v1.ab (closestT v0.ab v1.ab)) ≤ 0 := by
    rw [hunit, hq]
    have := hall _ horigin
    have hz : (v1.ab.sub v0.ab).rperp.dot (V2.zero : V2 K) = 0 := by simp [V2.dot, V2.zero]
    rw [hz] at this
    exact mul_nonpos_of_nonpos_of_nonneg this hk0
  have hn := (closest_n hM ctx v0 v1 h0.1 h1.1).1
  rw [← e] at hn
  unfold MPoint.closestPoints at e
  dsimp only at e
  rw [if_pos (Or.inl hneg)] at e
  refine ⟨?_, by rw [e]; exact hneg, fun x y hx hy => ?_, hn⟩
  · obtain ⟨a, b, ha, hb, hab⟩ := horigin
    refine ⟨a, ha, ?_⟩
    have : b = a := by
      simp only [V2.zero, V2.sub, V2.mk.injEq] at hab
      ext
      · linarith [hab.1]
      · linarith [hab.2]
    rw [← this]; exact hb
  · have h := mul_le_mul_of_nonneg_right (hall _ ⟨x, y, hx, hy, rfl⟩) hk0
    rw [← hq, ← hunit, ← hunit] at h
    rw [e]
    simp only
    simp only [V2.dot] at *
    linarith

/-! ## Examples -/

/-- A segment shape whose transformed ends are `a` and `b`. -/
def segAt {K : Type} [Field K] [LinearOrder K] (M : Mth K) (a b : V2 K) (r : K) : Segment K :=
  { Segment.new M a b r with ta := a, tb := b, tn := ((b.sub a).unit M).rperp }

/-- Two segments without radius and their boxes. -/
def exSegs {K : Type} [Field K] [LinearOrder K] (M : Mth K) (a b c d : V2 K) : Ctx K :=
  ⟨.segment (segAt M a b 0), .segment (segAt M c d 0), ⟨min a.x b.x, min a.y b.y, max a.x b.x, max a.y b.y⟩,
    ⟨min c.x d.x, min c.y d.y, max c.x d.x, max c.y d.y⟩⟩

/-- GJK ends with the right answer: distance 5 from corner to corner, distance 1 from corner to side; EPA ends with depth 3. -/
example :
    gjk gridMth 100000 (exSegs gridMth ⟨0, 0⟩ ⟨1, 0⟩ ⟨4, 4⟩ ⟨4, 8⟩) 0 = (⟨⟨1, 0⟩, ⟨4, 4⟩, ⟨3/5, 4/5⟩, 5, 16777473⟩, .gjkDone) ∧
    gjk gridMth 100000 (exSegs gridMth ⟨0, 0⟩ ⟨1, 0⟩ ⟨2, 2⟩ ⟨2, -2⟩) 0 = (⟨⟨1, 0⟩, ⟨2, 0⟩, ⟨1, 0⟩, 1, 16843008⟩, .gjkDone) ∧
    gjk gridMth 100000 (exSegs gridMth ⟨-4, 0⟩ ⟨4, 0⟩ ⟨1, -3⟩ ⟨1, 5⟩) 0 = (⟨⟨1, 0⟩, ⟨1, -3⟩, ⟨0, 1⟩, -3, 256⟩, .epaDone) := by
  decide +kernel

example : Solid (exSegs gridMth ⟨-4, 0⟩ ⟨4, 0⟩ ⟨1, -3⟩ ⟨1, 5⟩) ∧ Within 5 (exSegs gridMth ⟨-4, 0⟩ ⟨4, 0⟩ ⟨1, -3⟩ ⟨1, 5⟩).s1 ∧
    Within 5 (exSegs gridMth ⟨-4, 0⟩ ⟨4, 0⟩ ⟨1, -3⟩ ⟨1, 5⟩).s2 ∧ (8 * (5 * 5) : ℚ) < 100000 := by
  refine ⟨⟨by simp [exSegs, corners], by simp [exSegs, corners]⟩, ?_, ?_, by norm_num⟩ <;>
  · intro v hv
    simp only [exSegs, corners, segAt, List.mem_cons, List.not_mem_nil, or_false] at hv
    rcases hv with rfl | rfl <;> norm_num

/-- The hypotheses of `C45_gjk_partial` with real square roots: a disc above a segment. -/
example : ∃ c, gjk realMth 1000 ⟨.circle ⟨⟨0, 2⟩, ⟨0, 2⟩, 1⟩, .segment (segAt realMth ⟨-1, 0⟩ ⟨1, 0⟩ 0), ⟨-1, 1, 1, 3⟩, ⟨-1, 0, 1, 0⟩⟩ 0 =
    (c, .gjkDone) := by
  refine ⟨_, Prod.ext rfl ?_⟩
  simp only [gjk, gjkStart, ne_eq, not_true_eq_false, if_false, BB.center, V2.lerp, V2.add, V2.scale, V2.sub, V2.perp, V2.neg,
    Ctx.support, Cls.support, segAt, Segment.new, MPoint.new, V2.dot]
  norm_num
  rw [gjkRecurse]
  simp only [pointGreater, closestT, lerpT, clamp, checkAxis, V2.zero, V2.lengthSq, V2.dot, V2.sub, V2.add, V2.perp, V2.neg,
    Ctx.support, Cls.support, MPoint.new, V2.scale]
  norm_num

/-- **C45 (violated).** Two segments on one line, a unit apart: GJK stops having found the nearest points (1,0) and (2,0), but
reports the distance 0 and a normal across the line. -/
theorem C45_collinear : ∃ c, gjk gridMth 100000 (exSegs gridMth ⟨0, 0⟩ ⟨1, 0⟩ ⟨2, 0⟩ ⟨3, 0⟩) 0 = (c, .gjkDone) ∧
    c.a = ⟨1, 0⟩ ∧ c.b = ⟨2, 0⟩ ∧ c.d = 0 ∧ c.n = ⟨0, -1⟩ ∧ dist2 c.a c.b = 1 := by
  refine ⟨_, Prod.ext rfl ?_, ?_⟩ <;> decide +kernel

/-- A consequence: the two segments, of no thickness and a unit apart, are reported to touch in two contacts. -/
theorem C45_ghost : (collide gridMth 100000 (1/1000)
      ⟨.segment (segAt gridMth ⟨0, 0⟩ ⟨1, 0⟩ 0), ⟨0, 0, 1, 0⟩, 1, ⟨1, 0⟩⟩ ⟨.segment (segAt gridMth ⟨2, 0⟩ ⟨3, 0⟩ 0), ⟨2, 0, 3, 0⟩, 2, ⟨1, 0⟩⟩ 0).map
      (fun info => info.contacts.length) = some 2 := by
  decide +kernel

end Cm
