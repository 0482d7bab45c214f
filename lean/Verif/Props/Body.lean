import Verif.Model.Body
import Verif.Props.BB
import Mathlib.Algebra.BigOperators.Group.List.Basic
import Mathlib.Analysis.SpecialFunctions.Trigonometric.Basic
import Mathlib.Analysis.SpecialFunctions.Pow.Real
/-! # C32, C33, C50: mass properties, positions, integration -/
set_option linter.unusedSectionVars false
set_option linter.unusedSimpArgs false
set_option linter.unusedVariables false
set_option linter.unnecessarySeqFocus false

namespace Cm
open Spec

/-- The real functions satisfy the laws assumed of Go's `math`. -/
noncomputable def realMth : Mth ℝ where
  sqrt := Real.sqrt
  cos := Real.cos
  sin := Real.sin
  exp := Real.exp
  pow := fun e t => e ^ t
  floor := fun x => (⌊x⌋ : ℝ)

theorem realMth_lawful : realMth.Lawful where
  sqrt_nonneg := fun x _ => Real.sqrt_nonneg x
  sqrt_sq := fun x h => Real.mul_self_sqrt h
  cos_sin := fun x => Real.cos_sq_add_sin_sq x
  exp_pos := Real.exp_pos
  exp_le := fun x h => Real.exp_le_one_iff.2 h
  pow_nonneg := fun e t h => Real.rpow_nonneg h t
  pow_le := fun e t h h1 ht => Real.rpow_le_one h h1 ht
  floor_le := fun x => Int.floor_le x
  lt_floor := fun x => Int.lt_floor_add_one x

/-- Functions on `ℚ` that are right at the arguments used in examples: angle 0, a turn with cosine 3/5,
roots of 0, 1, 4, 9, 25. -/
def toyMth : Mth ℚ where
  sqrt := fun x => if x = 1 then 1 else if x = 4 then 2 else if x = 9 then 3 else if x = 25 then 5 else 0
  cos := fun a => if a = 0 then 1 else 3/5
  sin := fun a => if a = 0 then 0 else 4/5
  exp := fun x => if x = 0 then 1 else 1/2
  pow := fun _ t => if t = 0 then 1 else 1/2
  floor := fun x => (⌊x⌋ : ℚ)

variable {K : Type} [Field K] [LinearOrder K] [IsStrictOrderedRing K]

/-! ## Specification -/
namespace Spec
/-- Rotation by the angle with cosine `c` and sine `s`. -/
def turn (c s : K) (v : V2 K) : V2 K := ⟨c * v.x - s * v.y, s * v.x + c * v.y⟩
/-- Total mass. -/
def massSum (l : List (MassInfo K)) : K := (l.map (·.m)).sum
/-- First moments of mass. -/
def momX (l : List (MassInfo K)) : K := (l.map fun s => s.m * s.cog.x).sum
def momY (l : List (MassInfo K)) : K := (l.map fun s => s.m * s.cog.y).sum
/-- Second moment about the point `c`: each shape's own moment plus its mass times squared distance. -/
def inertiaAbout (l : List (MassInfo K)) (c : V2 K) : K :=
  (l.map fun s => s.m * (s.i + dist2 s.cog c)).sum
end Spec

/-! ## C32 -/

theorem addShape_spec (b : Body K) (s : MassInfo K) (hb : 0 ≤ b.m) (hs : 0 ≤ s.m) :
    (b.addShape s).m = b.m + s.m ∧
    (b.addShape s).m * (b.addShape s).cog.x = b.m * b.cog.x + s.m * s.cog.x ∧
    (b.addShape s).m * (b.addShape s).cog.y = b.m * b.cog.y + s.m * s.cog.y ∧
    (b.addShape s).i + (b.addShape s).m * ((b.addShape s).cog.x ^ 2 + (b.addShape s).cog.y ^ 2)
      = b.i + b.m * (b.cog.x ^ 2 + b.cog.y ^ 2) + s.m * (s.i + (s.cog.x ^ 2 + s.cog.y ^ 2)) := by
  unfold Body.addShape
  by_cases h : s.m > 0
  · rw [if_pos h]
    have hne : b.m + s.m ≠ 0 := by
      have : 0 < b.m + s.m := by linarith
      exact ne_of_gt this
    simp only [V2.lerp, V2.add, V2.scale, V2.distanceSq, V2.lengthSq, V2.dot, V2.sub]
    refine ⟨trivial, ?_, ?_, ?_⟩
    · field_simp; ring
    · field_simp; ring
    · field_simp; ring
  · have h0 : s.m = 0 := le_antisymm (not_lt.1 h) hs
    rw [if_neg h, h0]
    refine ⟨by ring, by ring, by ring, by ring⟩

theorem addShape_rest (b : Body K) (s : MassInfo K) :
    (b.addShape s).tr = b.tr ∧ (b.addShape s).angle = b.angle ∧ (b.addShape s).p = b.p ∧
    (b.addShape s).v = b.v ∧ (b.addShape s).w = b.w ∧ (b.addShape s).idle = b.idle ∧
    (b.addShape s).force = b.force ∧ (b.addShape s).torque = b.torque ∧
    (b.addShape s).vBias = b.vBias ∧ (b.addShape s).wBias = b.wBias ∧
    (b.addShape s).mInv = b.mInv ∧ (b.addShape s).iInv = b.iInv := by
  unfold Body.addShape
  split <;> simp

theorem foldShapes_rest (l : List (MassInfo K)) : ∀ b : Body K,
    (l.foldl Body.addShape b).tr = b.tr ∧ (l.foldl Body.addShape b).angle = b.angle ∧
    (l.foldl Body.addShape b).p = b.p ∧
    (l.foldl Body.addShape b).v = b.v ∧ (l.foldl Body.addShape b).w = b.w ∧
    (l.foldl Body.addShape b).idle = b.idle ∧
    (l.foldl Body.addShape b).force = b.force ∧ (l.foldl Body.addShape b).torque = b.torque ∧
    (l.foldl Body.addShape b).vBias = b.vBias ∧ (l.foldl Body.addShape b).wBias = b.wBias ∧
    (l.foldl Body.addShape b).mInv = b.mInv ∧ (l.foldl Body.addShape b).iInv = b.iInv := by
  induction l with
  | nil => intro b; simp
  | cons s l ih =>
    intro b
    have h1 := ih (b.addShape s)
    have h2 := addShape_rest b s
    simp only [List.foldl_cons]
    refine ⟨?_, ?_, ?_, ?_, ?_, ?_, ?_, ?_, ?_, ?_, ?_, ?_⟩
    · rw [h1.1, h2.1]
    · rw [h1.2.1, h2.2.1]
    · rw [h1.2.2.1, h2.2.2.1]
    · rw [h1.2.2.2.1, h2.2.2.2.1]
    · rw [h1.2.2.2.2.1, h2.2.2.2.2.1]
    · rw [h1.2.2.2.2.2.1, h2.2.2.2.2.2.1]
    · rw [h1.2.2.2.2.2.2.1, h2.2.2.2.2.2.2.1]
    · rw [h1.2.2.2.2.2.2.2.1, h2.2.2.2.2.2.2.2.1]
    · rw [h1.2.2.2.2.2.2.2.2.1, h2.2.2.2.2.2.2.2.2.1]
    · rw [h1.2.2.2.2.2.2.2.2.2.1, h2.2.2.2.2.2.2.2.2.2.1]
    · rw [h1.2.2.2.2.2.2.2.2.2.2.1, h2.2.2.2.2.2.2.2.2.2.2.1]
    · rw [h1.2.2.2.2.2.2.2.2.2.2.2, h2.2.2.2.2.2.2.2.2.2.2.2]

theorem foldShapes_spec (l : List (MassInfo K)) : ∀ b : Body K, 0 ≤ b.m → (∀ s ∈ l, 0 ≤ s.m) →
    (l.foldl Body.addShape b).m = b.m + massSum l ∧
    (l.foldl Body.addShape b).m * (l.foldl Body.addShape b).cog.x = b.m * b.cog.x + momX l ∧
    (l.foldl Body.addShape b).m * (l.foldl Body.addShape b).cog.y = b.m * b.cog.y + momY l ∧
    (l.foldl Body.addShape b).i + (l.foldl Body.addShape b).m *
        ((l.foldl Body.addShape b).cog.x ^ 2 + (l.foldl Body.addShape b).cog.y ^ 2)
      = b.i + b.m * (b.cog.x ^ 2 + b.cog.y ^ 2) + inertiaAbout l V2.zero := by
  induction l with
  | nil => intro b _ _; simp [massSum, momX, momY, inertiaAbout]
  | cons s l ih =>
    intro b hb hl
    have hs : 0 ≤ s.m := hl s (by simp)
    obtain ⟨e1, e2, e3, e4⟩ := addShape_spec b s hb hs
    obtain ⟨f1, f2, f3, f4⟩ := ih (b.addShape s) (by rw [e1]; linarith) (fun t ht => hl t (by simp [ht]))
    simp only [List.foldl_cons]
    refine ⟨?_, ?_, ?_, ?_⟩
    · rw [f1, e1]; simp only [massSum, List.map_cons, List.sum_cons]; ring
    · rw [f2, e2]; simp only [momX, List.map_cons, List.sum_cons]; ring
    · rw [f3, e3]; simp only [momY, List.map_cons, List.sum_cons]; ring
    · rw [f4, e4]; simp only [inertiaAbout, List.map_cons, List.sum_cons, dist2, V2.zero]; ring

theorem inertia_shift (l : List (MassInfo K)) (c : V2 K) :
    inertiaAbout l c = inertiaAbout l V2.zero - 2 * (c.x * momX l + c.y * momY l)
      + massSum l * (c.x ^ 2 + c.y ^ 2) := by
  induction l with
  | nil => simp [inertiaAbout, momX, momY, massSum]
  | cons s l ih =>
    simp only [inertiaAbout, momX, momY, massSum, List.map_cons, List.sum_cons, dist2, V2.zero] at ih ⊢
    linear_combination ih

/-- The transform agrees with the fields `angle`, `position`, `centerOfGravity`. -/
def Spec.Placed (M : Mth K) (b : Body K) : Prop := b.tr = Body.mkTransform M b.cog b.p b.angle

theorem setPosition_placed (M : Mth K) (b : Body K) (q : V2 K) : Placed M (b.setPosition M q) := rfl

theorem accumulate_eq (M : Mth K) (inf : K) (b : Body K) (l : List (MassInfo K))
    (hdyn : b.type inf = .dynamic) :
    (b.accumulate M inf l).m = (l.foldl Body.addShape { b with m := 0, i := 0, cog := V2.zero }).m ∧
    (b.accumulate M inf l).i = (l.foldl Body.addShape { b with m := 0, i := 0, cog := V2.zero }).i ∧
    (b.accumulate M inf l).cog = (l.foldl Body.addShape { b with m := 0, i := 0, cog := V2.zero }).cog ∧
    (b.accumulate M inf l).mInv = 1 / (b.accumulate M inf l).m ∧
    (b.accumulate M inf l).iInv = 1 / (b.accumulate M inf l).i ∧
    (b.accumulate M inf l).angle = b.angle ∧ (b.accumulate M inf l).v = b.v ∧
    (b.accumulate M inf l).w = b.w ∧ (b.accumulate M inf l).idle = b.idle := by
  obtain ⟨_, h2, _, h4, h5, h6, _⟩ := foldShapes_rest l { b with m := 0, i := 0, cog := V2.zero }
  have e : b.accumulate M inf l = Body.setPosition M
      { (l.foldl Body.addShape { b with m := 0, i := 0, cog := V2.zero }) with
        mInv := 1 / (l.foldl Body.addShape { b with m := 0, i := 0, cog := V2.zero }).m
        iInv := 1 / (l.foldl Body.addShape { b with m := 0, i := 0, cog := V2.zero }).i } b.position := by
    unfold Body.accumulate
    rw [if_neg (by rw [hdyn]; simp)]
  rw [e]
  refine ⟨rfl, rfl, rfl, rfl, rfl, h2, h4, h5, h6⟩

/-- **C32** Mass is the total mass, the centre of gravity the weighted mean, the moment the parallel axis
sum about it, and the inverses are the inverses. -/
theorem C32_mass_properties (M : Mth K) (inf : K) (b : Body K) (l : List (MassInfo K))
    (hdyn : b.type inf = .dynamic) (hl : ∀ s ∈ l, 0 ≤ s.m) (hpos : 0 < massSum l) :
    (b.accumulate M inf l).m = massSum l ∧
    (b.accumulate M inf l).cog = ⟨momX l / massSum l, momY l / massSum l⟩ ∧
    (b.accumulate M inf l).i = inertiaAbout l ⟨momX l / massSum l, momY l / massSum l⟩ ∧
    (b.accumulate M inf l).mInv = 1 / massSum l ∧
    (b.accumulate M inf l).iInv = 1 / inertiaAbout l ⟨momX l / massSum l, momY l / massSum l⟩ := by
  obtain ⟨f1, f2, f3, f4⟩ := foldShapes_spec l { b with m := 0, i := 0, cog := V2.zero } le_rfl hl
  obtain ⟨e1, e2, e3, e4, e5, _⟩ := accumulate_eq M inf b l hdyn
  rw [← e1] at f1
  rw [← e1, ← e3] at f2 f3 f4
  rw [← e2] at f4
  simp only [V2.zero, zero_add, zero_mul] at f1 f2 f3 f4
  have hne : massSum l ≠ 0 := ne_of_gt hpos
  rw [f1] at f2 f3 f4
  have hx : (b.accumulate M inf l).cog.x = momX l / massSum l := by
    rw [eq_div_iff hne]; linear_combination f2
  have hy : (b.accumulate M inf l).cog.y = momY l / massSum l := by
    rw [eq_div_iff hne]; linear_combination f3
  have hi : (b.accumulate M inf l).i = inertiaAbout l ⟨momX l / massSum l, momY l / massSum l⟩ := by
    rw [inertia_shift]
    have : (⟨(0:K), 0⟩ : V2 K) = V2.zero := rfl
    rw [this, hx, hy] at f4
    simp only []
    field_simp at f4 ⊢
    linear_combination f4
  refine ⟨f1, V2.ext hx hy, hi, by rw [e4, f1], by rw [e5, hi]⟩

/-- The order of the shapes does not matter. -/
theorem C32_order (M : Mth K) (inf : K) (b : Body K) (l l' : List (MassInfo K)) (hp : l.Perm l')
    (hl : ∀ s ∈ l, 0 ≤ s.m) (hpos : 0 < massSum l) :
    b.accumulate M inf l = b.accumulate M inf l' := by
  by_cases hdyn : b.type inf = .dynamic
  · have hm : massSum l' = massSum l := ((hp.map _).sum_eq).symm
    have hx : momX l' = momX l := ((hp.map _).sum_eq).symm
    have hy : momY l' = momY l := ((hp.map _).sum_eq).symm
    have hi : ∀ c, inertiaAbout l' c = inertiaAbout l c := fun c => ((hp.map _).sum_eq).symm
    obtain ⟨a1, a2, a3, a4, a5⟩ := C32_mass_properties M inf b l hdyn hl hpos
    obtain ⟨b1, b2, b3, b4, b5⟩ := C32_mass_properties M inf b l' hdyn
      (fun s hs => hl s (hp.mem_iff.2 hs)) (by rw [hm]; exact hpos)
    rw [hm, hx, hy] at b2
    rw [hm, hx, hy, hi] at b3 b5
    rw [hm] at b1 b4
    obtain ⟨c1, c2, c3, _⟩ := accumulate_eq M inf b l hdyn
    obtain ⟨d1, d2, d3, _⟩ := accumulate_eq M inf b l' hdyn
    have r := foldShapes_rest l { b with m := 0, i := 0, cog := V2.zero }
    have r' := foldShapes_rest l' { b with m := 0, i := 0, cog := V2.zero }
    have key : l.foldl Body.addShape { b with m := 0, i := 0, cog := V2.zero }
        = l'.foldl Body.addShape { b with m := 0, i := 0, cog := V2.zero } := by
      refine Body.ext ?_ ?_ ?_ ?_ ?_ ?_ ?_ ?_ ?_ ?_ ?_ ?_ ?_ ?_ ?_
      · rw [← c1, ← d1, a1, b1]
      · rw [r.2.2.2.2.2.2.2.2.2.2.1, r'.2.2.2.2.2.2.2.2.2.2.1]
      · rw [← c2, ← d2, a3, b3]
      · rw [r.2.2.2.2.2.2.2.2.2.2.2, r'.2.2.2.2.2.2.2.2.2.2.2]
      · rw [r.2.1, r'.2.1]
      · rw [r.2.2.2.2.1, r'.2.2.2.2.1]
      · rw [r.2.2.2.2.2.2.2.1, r'.2.2.2.2.2.2.2.1]
      · rw [← c3, ← d3, a2, b2]
      · rw [r.2.2.1, r'.2.2.1]
      · rw [r.2.2.2.1, r'.2.2.2.1]
      · rw [r.2.2.2.2.2.2.1, r'.2.2.2.2.2.2.1]
      · rw [r.1, r'.1]
      · rw [r.2.2.2.2.2.1, r'.2.2.2.2.2.1]
      · rw [r.2.2.2.2.2.2.2.2.1, r'.2.2.2.2.2.2.2.2.1]
      · rw [r.2.2.2.2.2.2.2.2.2.1, r'.2.2.2.2.2.2.2.2.2.1]
    unfold Body.accumulate
    rw [if_neg (by rw [hdyn]; simp), if_neg (by rw [hdyn]; simp)]
    simp only [key]
  · unfold Body.accumulate
    rw [if_pos hdyn, if_pos hdyn]

theorem position_of_placed (M : Mth K) (b : Body K) (h : Placed M b) :
    b.position = b.p.sub (turn (M.cos b.angle) (M.sin b.angle) b.cog) := by
  unfold Body.position; rw [h]
  simp only [Body.mkTransform, Transform.transpose, Transform.apply, V2.zero, V2.sub, turn]
  refine V2.ext ?_ ?_ <;> simp only [] <;> ring

theorem setPosition_position (M : Mth K) (b : Body K) (q : V2 K)
    (h : ∀ v, b.tr.applyVector v = turn (M.cos b.angle) (M.sin b.angle) v) :
    (b.setPosition M q).position = q := by
  rw [position_of_placed M _ (setPosition_placed M b q)]
  simp only [Body.setPosition, Body.setTransform, h, V2.add, V2.sub, turn]
  refine V2.ext ?_ ?_ <;> simp only [] <;> ring

theorem placed_applyVector (M : Mth K) (b : Body K) (h : Placed M b) (v : V2 K) :
    b.tr.applyVector v = turn (M.cos b.angle) (M.sin b.angle) v := by
  rw [h]
  simp only [Body.mkTransform, Transform.transpose, Transform.applyVector, turn]
  refine V2.ext ?_ ?_ <;> simp only [] <;> ring

theorem accumulate_placed (M : Mth K) (inf : K) (b : Body K) (l : List (MassInfo K)) (h : Placed M b) :
    Placed M (b.accumulate M inf l) := by
  unfold Body.accumulate
  split
  · exact h
  · exact setPosition_placed M _ _

theorem accumulate_position (M : Mth K) (inf : K) (b : Body K) (l : List (MassInfo K)) (h : Placed M b) :
    (b.accumulate M inf l).position = b.position ∧ (b.accumulate M inf l).angle = b.angle ∧
    (b.accumulate M inf l).v = b.v ∧ (b.accumulate M inf l).w = b.w := by
  by_cases hdyn : b.type inf = .dynamic
  · obtain ⟨_, _, _, _, _, ha, hv, hw, _⟩ := accumulate_eq M inf b l hdyn
    refine ⟨?_, ha, hv, hw⟩
    obtain ⟨r1, r2, _⟩ := foldShapes_rest l { b with m := 0, i := 0, cog := V2.zero }
    unfold Body.accumulate
    rw [if_neg (by rw [hdyn]; simp)]
    refine setPosition_position M _ _ ?_
    intro v
    simp only [r1, r2]
    exact placed_applyVector M b h v
  · unfold Body.accumulate
    rw [if_pos hdyn]
    exact ⟨rfl, rfl, rfl, rfl⟩

/-- Two unit discs of mass 1 and 3, four apart: total mass 4, centre at 3, moment `1*(1/2+9) + 3*(1/2+1)`. -/
example :
    let l : List (MassInfo ℚ) := [⟨1, 1/2, ⟨0, 0⟩⟩, ⟨3, 1/2, ⟨4, 0⟩⟩, ⟨0, 7, ⟨9, 9⟩⟩]
    let b := (Body.new toyMth 1 1 : Body ℚ)
    (∀ s ∈ l, 0 ≤ s.m) ∧ 0 < massSum l ∧ b.type 1000000 = .dynamic ∧ Placed toyMth b ∧
    (b.accumulate toyMth 1000000 l).m = 4 ∧ (b.accumulate toyMth 1000000 l).cog = ⟨3, 0⟩ ∧
    (b.accumulate toyMth 1000000 l).i = 14 := by
  refine ⟨?_, ?_, ?_, rfl, ?_, ?_, ?_⟩ <;> decide +kernel

/-! ## C33 -/

theorem step_placed (M : Mth K) (inf : K) (b : Body K) (op : Body.Op K) (h : Placed M b) :
    Placed M (b.step M inf op) := by
  cases op with
  | setPosition p => exact setPosition_placed M b p
  | setAngle a => rfl
  | setType t s =>
    simp only [Body.step, Body.setType]
    split
    · exact h
    · split
      · exact accumulate_placed M inf _ s h
      · exact h
  | accumulate s => exact accumulate_placed M inf b s h
  | updateVelocity g d dt =>
    simp only [Body.step, Body.updateVelocity]
    split
    · exact h
    · exact h
  | updatePosition dt => rfl
  | _ => exact h

theorem run_placed (M : Mth K) (inf : K) (ops : List (Body.Op K)) : ∀ b : Body K, Placed M b →
    Placed M (b.run M inf ops) := by
  induction ops with
  | nil => intro b h; exact h
  | cons op ops ih => intro b h; exact ih _ (step_placed M inf b op h)

/-- Every body reached from `NewBody` by public operations. -/
def Spec.Reached (M : Mth K) (inf : K) (b : Body K) : Prop :=
  ∃ (mass moment : K) (ops : List (Body.Op K)), b = (Body.new M mass moment).run M inf ops

theorem Spec.Reached.placed {M : Mth K} {inf : K} {b : Body K} (h : Reached M inf b) : Placed M b := by
  obtain ⟨m, i, ops, rfl⟩ := h
  exact run_placed M inf ops _ rfl

/-- Recomputing the mass leaves `Position`, `Angle` and the velocities alone, after any history. -/
theorem C32_position (M : Mth K) (inf : K) (b : Body K) (hb : Reached M inf b) (l : List (MassInfo K)) :
    (b.accumulate M inf l).position = b.position ∧ (b.accumulate M inf l).angle = b.angle ∧
    (b.accumulate M inf l).v = b.v ∧ (b.accumulate M inf l).w = b.w :=
  accumulate_position M inf b l hb.placed

/-- **C33** `Position` returns what `SetPosition` set, `Angle` what `SetAngle` set, and `Rotation` is the unit
vector at that angle, after any history. -/
theorem C33_position_angle (M : Mth K) (inf : K) (b : Body K) (hb : Reached M inf b) (q : V2 K) (a : K) :
    (b.setPosition M q).position = q ∧ (b.setPosition M q).angle = b.angle ∧
    (b.setAngle M a).angle = a ∧ (b.setAngle M a).rotation = ⟨M.cos a, M.sin a⟩ ∧
    b.rotation = ⟨M.cos b.angle, M.sin b.angle⟩ := by
  refine ⟨setPosition_position M b q (placed_applyVector M b hb.placed), rfl, rfl, rfl, ?_⟩
  have := hb.placed
  unfold Body.rotation
  rw [this]
  rfl

/-- Conversions are mutual inverses and preserve distances. -/
theorem C33_conversions (M : Mth K) (hM : M.Lawful) (inf : K) (b : Body K) (hb : Reached M inf b)
    (q r : V2 K) :
    b.worldToLocal (b.localToWorld q) = q ∧ b.localToWorld (b.worldToLocal q) = q ∧
    dist2 (b.localToWorld q) (b.localToWorld r) = dist2 q r ∧
    dist2 (b.worldToLocal q) (b.worldToLocal r) = dist2 q r := by
  have h := hM.cos_sin b.angle
  have hp := hb.placed
  have e1 : ∀ q, b.worldToLocal (b.localToWorld q) = q := by
    intro q
    unfold Body.worldToLocal Body.localToWorld
    rw [hp]
    simp only [Body.mkTransform, Transform.rigidInverse, Transform.transpose, Transform.apply]
    refine V2.ext ?_ ?_ <;> simp only []
    · linear_combination q.x * h
    · linear_combination q.y * h
  have e2 : ∀ q, b.localToWorld (b.worldToLocal q) = q := by
    intro q
    unfold Body.worldToLocal Body.localToWorld
    rw [hp]
    simp only [Body.mkTransform, Transform.rigidInverse, Transform.transpose, Transform.apply]
    refine V2.ext ?_ ?_ <;> simp only []
    · linear_combination (q.x - (b.p.x - (b.cog.x * M.cos b.angle - b.cog.y * M.sin b.angle))) * h
    · linear_combination (q.y - (b.p.y - (b.cog.x * M.sin b.angle + b.cog.y * M.cos b.angle))) * h
  have e3 : ∀ q r, dist2 (b.localToWorld q) (b.localToWorld r) = dist2 q r := by
    intro q r
    unfold Body.localToWorld
    rw [hp]
    simp only [Body.mkTransform, Transform.transpose, Transform.apply, dist2]
    linear_combination ((q.x - r.x) ^ 2 + (q.y - r.y) ^ 2) * h
  refine ⟨e1 q, e2 q, e3 q r, ?_⟩
  rw [← e3, e2, e2]

/-- `SetAngle` turns the body about its centre of gravity. -/
theorem C33_turns_about_cog (M : Mth K) (inf : K) (b : Body K) (hb : Reached M inf b) (a : K) (q : V2 K) :
    (b.setAngle M a).localToWorld b.cog = b.localToWorld b.cog ∧
    ((b.setAngle M a).localToWorld q).sub (b.localToWorld b.cog) = turn (M.cos a) (M.sin a) (q.sub b.cog) := by
  have hp := hb.placed
  unfold Body.localToWorld
  rw [hp]
  simp only [Body.setAngle, Body.setTransform, Body.mkTransform, Transform.transpose, Transform.apply, turn,
    V2.sub]
  refine ⟨V2.ext ?_ ?_, V2.ext ?_ ?_⟩ <;> (try simp only []) <;> ring

/-- The velocity of a local point is the velocity at its world position, which is that of rigid motion. -/
theorem C33_velocity (M : Mth K) (inf : K) (b : Body K) (hb : Reached M inf b) (q : V2 K) :
    b.velocityAtLocal q = b.velocityAtWorld (b.localToWorld q) ∧
    (b.velocityAtWorld q).x = b.v.x - b.w * (q.y - b.p.y) ∧
    (b.velocityAtWorld q).y = b.v.y + b.w * (q.x - b.p.x) := by
  have hp := hb.placed
  unfold Body.velocityAtLocal Body.velocityAtWorld Body.localToWorld
  rw [hp]
  simp only [Body.mkTransform, Transform.transpose, Transform.apply, Transform.applyVector, V2.sub, V2.add,
    V2.scale, V2.perp]
  refine ⟨V2.ext ?_ ?_, ?_, ?_⟩ <;> (try simp only []) <;> ring

/-- The exported `SetTransform` is not a setter of the position: after it `Angle` and the stored position
are stale, and the next position update undoes it. -/
theorem C33_setTransform_not_kept (M : Mth K) (b : Body K) (p : V2 K) (a dt : K) :
    (b.setTransform M p a).angle = b.angle ∧
    (b.setTransform M p a).updatePosition M dt = b.updatePosition M dt := ⟨rfl, rfl⟩

example : Reached toyMth 1000000
    ((Body.new toyMth 2 3).run toyMth 1000000
      [.setPosition ⟨5, 7⟩, .accumulate [⟨1, 1, ⟨1, 0⟩⟩], .setAngle 1, .setVelocity ⟨1, 2⟩, .updatePosition 1,
       .setType .kinematic []]) := ⟨2, 3, _, rfl⟩

/-- The body of the example really is turned and off centre, and the real functions meet `hM`. -/
example :
    ((Body.new toyMth 2 3).run toyMth 1000000
      [.setPosition ⟨5, 7⟩, .accumulate [⟨1, 1, ⟨1, 0⟩⟩], .setAngle 1, .setVelocity ⟨1, 2⟩,
       .updatePosition 1]).position = ⟨6 + 2/5, 9 - 4/5⟩ := by decide +kernel
example : realMth.Lawful := realMth_lawful

/-! ## C50 -/

/-- **C50** Kinematic bodies keep their velocity and forces; all others get gravity, damping and forces, and
the accumulated force and torque are cleared. Nothing else changes. -/
theorem C50_velocity (inf : K) (b : Body K) (g : V2 K) (d dt : K) :
    (b.type inf = .kinematic → b.updateVelocity inf g d dt = b) ∧
    (b.type inf ≠ .kinematic →
      (b.updateVelocity inf g d dt).v.x = d * b.v.x + dt * (g.x + b.mInv * b.force.x) ∧
      (b.updateVelocity inf g d dt).v.y = d * b.v.y + dt * (g.y + b.mInv * b.force.y) ∧
      (b.updateVelocity inf g d dt).w = d * b.w + dt * (b.iInv * b.torque) ∧
      (b.updateVelocity inf g d dt).force = V2.zero ∧ (b.updateVelocity inf g d dt).torque = 0 ∧
      (b.updateVelocity inf g d dt).p = b.p ∧ (b.updateVelocity inf g d dt).angle = b.angle ∧
      (b.updateVelocity inf g d dt).tr = b.tr ∧
      (b.updateVelocity inf g d dt).type inf = b.type inf) := by
  constructor
  · intro h; unfold Body.updateVelocity; rw [if_pos h]
  · intro h
    unfold Body.updateVelocity; rw [if_neg h]
    refine ⟨?_, ?_, ?_, rfl, rfl, rfl, rfl, rfl, rfl⟩ <;> simp only [V2.add, V2.scale] <;> ring

/-- The position update moves by velocity plus correction and clears the correction. -/
theorem C50_position (M : Mth K) (b : Body K) (dt : K) :
    (b.updatePosition M dt).p.x = b.p.x + dt * (b.v.x + b.vBias.x) ∧
    (b.updatePosition M dt).p.y = b.p.y + dt * (b.v.y + b.vBias.y) ∧
    (b.updatePosition M dt).angle = b.angle + dt * (b.w + b.wBias) ∧
    (b.updatePosition M dt).vBias = V2.zero ∧ (b.updatePosition M dt).wBias = 0 ∧
    (b.updatePosition M dt).v = b.v ∧ (b.updatePosition M dt).w = b.w ∧
    Placed M (b.updatePosition M dt) := by
  refine ⟨?_, ?_, ?_, rfl, rfl, rfl, rfl, rfl⟩ <;>
    simp only [Body.updatePosition, Body.setTransform, V2.add, V2.scale] <;> ring

/-- `n` rounds of position update followed by velocity update, the order of `Space.Step`. -/
def Spec.rounds (M : Mth K) (inf : K) (g : V2 K) (d dt : K) : Nat → Body K → Body K
  | 0, b => b
  | n + 1, b => (((rounds M inf g d dt n b).updatePosition M dt).updateVelocity inf g d dt)

/-- Free fall without damping: after `n` rounds the velocity is `v + n g dt` and the position
`p + n v dt + n(n-1)/2 g dt²`, exactly. -/
theorem C50_telescope (M : Mth K) (inf : K) (b : Body K) (g : V2 K) (dt : K) (n : Nat)
    (hk : b.type inf ≠ .kinematic) (hf : b.force = V2.zero) (ht : b.torque = 0)
    (hv : b.vBias = V2.zero) (hw : b.wBias = 0) :
    (rounds M inf g 1 dt n b).v = ⟨b.v.x + n * (g.x * dt), b.v.y + n * (g.y * dt)⟩ ∧
    (rounds M inf g 1 dt n b).w = b.w ∧
    (rounds M inf g 1 dt n b).p = ⟨b.p.x + n * (b.v.x * dt) + n * (n - 1) / 2 * (g.x * dt * dt),
      b.p.y + n * (b.v.y * dt) + n * (n - 1) / 2 * (g.y * dt * dt)⟩ ∧
    (rounds M inf g 1 dt n b).angle = b.angle + n * (b.w * dt) := by
  suffices H : (rounds M inf g 1 dt n b).v = ⟨b.v.x + n * (g.x * dt), b.v.y + n * (g.y * dt)⟩ ∧
      (rounds M inf g 1 dt n b).w = b.w ∧
      (rounds M inf g 1 dt n b).p = ⟨b.p.x + n * (b.v.x * dt) + n * (n - 1) / 2 * (g.x * dt * dt),
        b.p.y + n * (b.v.y * dt) + n * (n - 1) / 2 * (g.y * dt * dt)⟩ ∧
      (rounds M inf g 1 dt n b).angle = b.angle + n * (b.w * dt) ∧
      (rounds M inf g 1 dt n b).type inf ≠ .kinematic ∧ (rounds M inf g 1 dt n b).force = V2.zero ∧
      (rounds M inf g 1 dt n b).torque = 0 ∧ (rounds M inf g 1 dt n b).vBias = V2.zero ∧
      (rounds M inf g 1 dt n b).wBias = 0 by
    exact ⟨H.1, H.2.1, H.2.2.1, H.2.2.2.1⟩
  induction n with
  | zero =>
    refine ⟨?_, rfl, ?_, ?_, hk, hf, ht, hv, hw⟩
    · simp [rounds]
    · simp [rounds]
    · simp [rounds]
  | succ n ih =>
    obtain ⟨i1, i2, i3, i4, i5, i6, i7, i8, i9⟩ := ih
    have e : rounds M inf g 1 dt (n + 1) b
        = ((rounds M inf g 1 dt n b).updatePosition M dt).updateVelocity inf g 1 dt := rfl
    rw [e]
    generalize rounds M inf g 1 dt n b = c at *
    have hk' : (c.updatePosition M dt).type inf ≠ .kinematic := i5
    obtain ⟨u1, u2, u3, u4, u5, u6, u7, _, u9⟩ := (C50_velocity inf (c.updatePosition M dt) g 1 dt).2 hk'
    obtain ⟨q1, q2, q3, q4, q5, q6, q7, _⟩ := C50_position M c dt
    have f1 : (c.updatePosition M dt).force = c.force := rfl
    have f2 : (c.updatePosition M dt).torque = c.torque := rfl
    have f3 : ((c.updatePosition M dt).updateVelocity inf g 1 dt).vBias = V2.zero := by
      unfold Body.updateVelocity; rw [if_neg hk']; rfl
    have f4 : ((c.updatePosition M dt).updateVelocity inf g 1 dt).wBias = 0 := by
      unfold Body.updateVelocity; rw [if_neg hk']; rfl
    refine ⟨V2.ext ?_ ?_, ?_, V2.ext ?_ ?_, ?_, by rw [u9]; exact hk', u4, u5, f3, f4⟩
    · rw [u1, f1, i6, q6, i1]; simp only [V2.zero]; push_cast; ring
    · rw [u2, f1, i6, q6, i1]; simp only [V2.zero]; push_cast; ring
    · rw [u3, f2, i7, q7, i2]; ring
    · rw [u6, q1, i3, i1, i8]; simp only [V2.zero]; push_cast; ring
    · rw [u6, q2, i3, i1, i8]; simp only [V2.zero]; push_cast; ring
    · rw [u7, q3, i4, i2, i9]; push_cast; ring

example : (Spec.rounds toyMth 1000000 (⟨0, -10⟩ : V2 ℚ) 1 1 3 (Body.new toyMth 2 3)).p = ⟨0, -30⟩ := by
  decide +kernel

/-- With damping `d` and any start: the velocity after `n` rounds with no further forces. -/
theorem C50_damped (inf : K) (g : V2 K) (d dt : K) (n : Nat) : ∀ b : Body K,
    b.type inf ≠ .kinematic → b.force = V2.zero → b.torque = 0 →
    let b' := (fun b => b.updateVelocity inf g d dt)^[n] b
    b'.v.x * (1 - d) = d ^ n * (b.v.x * (1 - d)) + (1 - d ^ n) * (g.x * dt) ∧
    b'.v.y * (1 - d) = d ^ n * (b.v.y * (1 - d)) + (1 - d ^ n) * (g.y * dt) ∧
    b'.w = d ^ n * b.w := by
  induction n with
  | zero => intro b _ _ _; simp
  | succ n ih =>
    intro b hk hf ht
    obtain ⟨u1, u2, u3, u4, u5, _, _, _, u9⟩ := (C50_velocity inf b g d dt).2 hk
    have := ih (b.updateVelocity inf g d dt) (by rw [u9]; exact hk) u4 u5
    simp only [Function.iterate_succ, Function.comp] at this ⊢
    obtain ⟨t1, t2, t3⟩ := this
    refine ⟨?_, ?_, ?_⟩
    · rw [t1, u1, hf]; simp only [V2.zero]; ring
    · rw [t2, u2, hf]; simp only [V2.zero]; ring
    · rw [t3, u3, ht]; ring

end Cm
