import Verif.Props.Inertia
import Verif.Props.ShapeMade
/-!
# C95, C104: boxes anywhere with their rounding, and the moment of a rod about the origin
-/
set_option linter.unusedSectionVars false
namespace Cm
open Spec Area

section
variable {K : Type} [Field K] [LinearOrder K] [IsStrictOrderedRing K]

/-- **C95 (boxes anywhere).** `NewBoxShape2` covers exactly the points within the rounding radius of the box, and `NewBoxShape` those within it of the box around the origin;
a segment those within the radius of the points between its ends, a circle those within it of its offset. -/
theorem C95_rounding (M : Mth K) (r : K) :
    (∀ bb : BB K, bb.L < bb.R → bb.B < bb.T → ∀ x, InLocalShape (.poly (newBox2 M bb r)) x ↔
      ∃ q : V2 K, (bb.L ≤ q.x ∧ q.x ≤ bb.R) ∧ (bb.B ≤ q.y ∧ q.y ≤ bb.T) ∧ dist2 x q ≤ r * r) ∧
    (∀ w h : K, 0 < w → 0 < h → ∀ x, InLocalShape (.poly (newBox M w h r)) x ↔ ∃ q : V2 K, |q.x| ≤ w / 2 ∧ |q.y| ≤ h / 2 ∧ dist2 x q ≤ r * r) ∧
    (∀ a b x, InLocalShape (.segment (Segment.new M a b r)) x ↔ ∃ q, OnSegment a b q ∧ dist2 x q ≤ r * r) ∧
    (∀ c x, InLocalShape (.circle (Circle.new r c)) x ↔ dist2 x c ≤ r * r) := by
  have hbox : ∀ bb : BB K, bb.L < bb.R → bb.B < bb.T → ∀ x, InLocalShape (.poly (newBox2 M bb r)) x ↔
      ∃ q : V2 K, (bb.L ≤ q.x ∧ q.x ≤ bb.R) ∧ (bb.B ≤ q.y ∧ q.y ≤ bb.T) ∧ dist2 x q ≤ r * r := by
    intro bb hx hy x
    have core : ∀ q, LocalCore (.poly (newBox2 M bb r)) q ↔ (bb.L ≤ q.x ∧ q.x ≤ bb.R) ∧ (bb.B ≤ q.y ∧ q.y ≤ bb.T) := by
      intro q
      have hl : (newBox2 M bb r).loc.map Plane.v0 = boxVerts bb := setVertsGo_verts M _ _
      simp only [LocalCore, hl]
      constructor
      · intro hq
        induction hq with
        | vert v hv =>
          simp only [boxVerts, List.mem_cons, List.not_mem_nil, or_false] at hv
          rcases hv with rfl | rfl | rfl | rfl <;> exact ⟨⟨by linarith, by linarith⟩, by linarith, by linarith⟩
        | mix p q s _ _ h0 h1 ih1 ih2 =>
          simp only [At]
          obtain ⟨⟨a1, a2⟩, a3, a4⟩ := ih1
          obtain ⟨⟨b1, b2⟩, b3, b4⟩ := ih2
          refine ⟨⟨?_, ?_⟩, ?_, ?_⟩ <;> nlinarith
      · rintro ⟨⟨a1, a2⟩, a3, a4⟩
        have hw : 0 < bb.R - bb.L := by linarith
        have hh : 0 < bb.T - bb.B := by linarith
        have s0 : 0 ≤ (q.x - bb.L) / (bb.R - bb.L) := div_nonneg (by linarith) hw.le
        have s1 : (q.x - bb.L) / (bb.R - bb.L) ≤ 1 := by rw [div_le_one hw]; linarith
        have t0 : 0 ≤ (q.y - bb.B) / (bb.T - bb.B) := div_nonneg (by linarith) hh.le
        have t1 : (q.y - bb.B) / (bb.T - bb.B) ≤ 1 := by rw [div_le_one hh]; linarith
        have low := Hull.mix _ _ _ (Hull.vert (l := boxVerts bb) ⟨bb.L, bb.B⟩ (by simp [boxVerts])) (Hull.vert (l := boxVerts bb) ⟨bb.R, bb.B⟩ (by simp [boxVerts])) s0 s1
        have high := Hull.mix _ _ _ (Hull.vert (l := boxVerts bb) ⟨bb.L, bb.T⟩ (by simp [boxVerts])) (Hull.vert (l := boxVerts bb) ⟨bb.R, bb.T⟩ (by simp [boxVerts])) s0 s1
        have := Hull.mix _ _ _ low high t0 t1
        have e : At (At (⟨bb.L, bb.B⟩ : V2 K) ⟨bb.R, bb.B⟩ ((q.x - bb.L) / (bb.R - bb.L))) (At ⟨bb.L, bb.T⟩ ⟨bb.R, bb.T⟩ ((q.x - bb.L) / (bb.R - bb.L)))
            ((q.y - bb.B) / (bb.T - bb.B)) = q := by
          have hw' := ne_of_gt hw
          have hh' := ne_of_gt hh
          ext <;> simp only [At] <;> field_simp <;> ring
        rwa [e] at this
    constructor
    · rintro ⟨q, hq, hd⟩; exact ⟨q, ((core q).1 hq).1, ((core q).1 hq).2, hd⟩
    · rintro ⟨q, h1, h2, hd⟩; exact ⟨q, (core q).2 ⟨h1, h2⟩, hd⟩
  refine ⟨hbox, fun w h hw hh x => ?_, fun a b x => Iff.rfl, fun c x => ?_⟩
  · refine (hbox ⟨-(w / 2), -(h / 2), w / 2, h / 2⟩ (by simp only; linarith) (by simp only; linarith) x).trans ?_
    simp only [abs_le, and_assoc]
  · constructor
    · rintro ⟨q, rfl, hd⟩; exact hd
    · intro hd; exact ⟨c, rfl, hd⟩

/-- A box away from the origin with a rounding of one half covers a point outside its sides. -/
example : InLocalShape (.poly (newBox2 gridMth (⟨1, 1, 3, 2⟩ : BB ℚ) (1/2))) ⟨7/2, 3/2⟩ :=
  ((C95_rounding gridMth (1/2)).1 ⟨1, 1, 3, 2⟩ (by norm_num) (by norm_num) _).2 ⟨⟨3, 3/2⟩, by norm_num, by norm_num, by norm_num [dist2]⟩

end

/-- **C104 (rods about the origin).** `MomentForSegment` is the mass times the average squared distance from the body's origin of a rectangle as long and wide as the
segment with its rounding, put with its middle at the middle of the segment: the moment about its middle plus the mass times the square of the distance of the middle. -/
theorem C104_rod {M : Mth ℝ} (hM : M.Lawful) (m : ℝ) (a b : V2 ℝ) {r : ℝ} (hr : 0 < r) :
    momentForSegment M m a b r =
      m * (meanOver (fun p => |p.x| ≤ ((b.sub a).mag M + 2 * r) / 2 ∧ |p.y| ≤ r) (fun p => dist2 p V2.zero) +
        dist2 ⟨(a.x + b.x) / 2, (a.y + b.y) / 2⟩ V2.zero) ∧
    ∀ m', momentForSegment M m a b r = m * (((Cls.segment (Segment.new M a b r)).massInfo M Real.pi m').i +
      dist2 ((Cls.segment (Segment.new M a b r)).massInfo M Real.pi m').cog V2.zero) := by
  have h0 : 0 ≤ (b.sub a).mag M := by rw [mag_real hM]; exact len_nonneg _
  have hbox := (C104_box 1 ⟨0, 0, 1, 1⟩ (by norm_num) (by norm_num)).2 ((b.sub a).mag M + 2 * r) (2 * r) (by linarith) (by linarith)
  have hs : (a.sub b).mag M = (b.sub a).mag M := by
    simp only [V2.mag, V2.lengthSq, V2.dot, V2.sub]
    congr 1; ring
  constructor
  · rw [show 2 * r / 2 = r by ring, one_mul] at hbox
    rw [← hbox]
    simp only [momentForSegment, momentForBox, V2.lerp, V2.lengthSq, V2.dot, V2.add, V2.scale, dist2, V2.zero]
    ring
  · intro m'
    simp only [Cls.massInfo, segmentMassInfo, Segment.new, hs]
    simp only [momentForSegment, momentForBox, V2.lerp, V2.lengthSq, V2.dot, V2.add, V2.scale, dist2, V2.zero]
    ring

/-- A rod of length two away from the origin: its middle is at distance three. -/
example : momentForSegment gridMth (2 : ℚ) ⟨3, -1⟩ ⟨3, 1⟩ 1 = 2 * ((16 + 4) / 12 + 9) := by decide +kernel

end Cm
