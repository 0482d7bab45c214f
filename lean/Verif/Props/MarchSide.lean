import Verif.Props.MarchClosed
/-! # C84: contours keep the solid on their left -/
set_option linter.unusedSectionVars false
set_option linter.unusedSimpArgs false
set_option linter.unusedVariables false

namespace Cm
open Spec
variable {K : Type} [Field K] [LinearOrder K] [IsStrictOrderedRing K]

namespace Spec
/-- Positive if `c` is to the left of the directed segment `s`, negative if to the right. -/
def sideOf (s : V2 K × V2 K) (c : V2 K) : K := (s.2.sub s.1).cross (c.sub s.1)

/-- The corners of a cell with their samples. -/
def cellCorners (q : MCell K) : List (V2 K × K) := [(⟨q.x0, q.y0⟩, q.a), (⟨q.x1, q.y0⟩, q.b), (⟨q.x0, q.y1⟩, q.c), (⟨q.x1, q.y1⟩, q.d)]

/-- Two opposite corners are above the threshold and the other two are not. -/
def Saddle (t : K) (q : MCell K) : Prop := (q.a > t ∧ q.d > t ∧ ¬ q.b > t ∧ ¬ q.c > t) ∨ (¬ q.a > t ∧ ¬ q.d > t ∧ q.b > t ∧ q.c > t)
end Spec

theorem midlerp_within (x0 x1 s u t : K) (hx : x0 < x1) (h : (s > t ∧ ¬ u > t) ∨ (¬ s > t ∧ u > t)) :
    0 ≤ midlerp x0 x1 s u t - x0 ∧ 0 ≤ x1 - midlerp x0 x1 s u t := by
  unfold midlerp mlerp
  set r := (t - s) / (u - s) with hr
  have h0 : 0 ≤ r ∧ r ≤ 1 := by
    rcases h with ⟨h1, h2⟩ | ⟨h1, h2⟩ <;> rw [not_lt] at *
    · refine ⟨div_nonneg_of_nonpos (by linarith) (by linarith), ?_⟩
      rw [hr, div_le_one_of_neg (by linarith)]
      linarith
    · refine ⟨div_nonneg (by linarith) (by linarith), ?_⟩
      rw [hr, div_le_one (by linarith)]
      linarith
  constructor <;> nlinarith [h0.1, h0.2]

theorem mem_mseg {v0 v1 : V2 K} {s : V2 K × V2 K} (h : s ∈ mseg v0 v1) : s = (v1, v0) := by
  unfold mseg at h
  split at h
  · simp at h
  · simpa using h

set_option maxHeartbeats 4000000 in
/-- **C84.** Every segment `MarchSoft` emits has no corner of its cell that is not above the threshold strictly on its left. -/
theorem C84_outside (t : K) (q : MCell K) (hx : q.x0 < q.x1) (hy : q.y0 < q.y1) :
    ∀ s ∈ softCell t q, ∀ c ∈ cellCorners q, ¬ c.2 > t → sideOf s c.1 ≤ 0 := by
  have fl := midlerp_within q.y0 q.y1 q.a q.c t hy
  have fr := midlerp_within q.y0 q.y1 q.b q.d t hy
  have fb := midlerp_within q.x0 q.x1 q.a q.b t hx
  have ft := midlerp_within q.x0 q.x1 q.c q.d t hx
  unfold softCell MCell.code cellCorners
  obtain ⟨a, b, c, d, x0, x1, y0, y1⟩ := q
  simp only at *
  generalize midlerp y0 y1 a c t = l at *
  generalize midlerp y0 y1 b d t = r at *
  generalize midlerp x0 x1 a b t = bm at *
  generalize midlerp x0 x1 c d t = tp at *
  by_cases ha : a > t <;> by_cases hb : b > t <;> by_cases hc : c > t <;> by_cases hd : d > t <;>
    simp only [ha, hb, hc, hd, if_true, if_false, Nat.reduceAdd, not_true, not_false_eq_true, and_true, and_false, or_false, false_or, true_or, or_true,
      forall_true_left, List.mem_append, List.not_mem_nil, false_implies, implies_true] at fl fr fb ft ⊢ <;>
    intro s hs p hp hn <;>
    simp only [List.mem_cons, List.not_mem_nil, or_false] at hp <;>
    (first | (rcases hs with hs | hs) | skip) <;>
    rw [mem_mseg hs] <;>
    rcases hp with rfl | rfl | rfl | rfl <;>
    first
      | exact absurd ‹_ > t› hn
      | (simp only [sideOf, V2.sub, V2.cross]
         nlinarith)

set_option maxHeartbeats 4000000 in
/-- **C84.** Unless the cell is a saddle, no corner above the threshold is strictly on the right of the segment. -/
theorem C84_inside (t : K) (q : MCell K) (hx : q.x0 < q.x1) (hy : q.y0 < q.y1) (hns : ¬ Saddle t q) :
    ∀ s ∈ softCell t q, ∀ c ∈ cellCorners q, c.2 > t → 0 ≤ sideOf s c.1 := by
  have fl := midlerp_within q.y0 q.y1 q.a q.c t hy
  have fr := midlerp_within q.y0 q.y1 q.b q.d t hy
  have fb := midlerp_within q.x0 q.x1 q.a q.b t hx
  have ft := midlerp_within q.x0 q.x1 q.c q.d t hx
  unfold Saddle at hns
  unfold softCell MCell.code cellCorners
  obtain ⟨a, b, c, d, x0, x1, y0, y1⟩ := q
  simp only at *
  generalize midlerp y0 y1 a c t = l at *
  generalize midlerp y0 y1 b d t = r at *
  generalize midlerp x0 x1 a b t = bm at *
  generalize midlerp x0 x1 c d t = tp at *
  by_cases ha : a > t <;> by_cases hb : b > t <;> by_cases hc : c > t <;> by_cases hd : d > t <;>
    simp only [ha, hb, hc, hd, if_true, if_false, Nat.reduceAdd, not_true, not_false_eq_true, and_true, and_false, or_false, false_or, true_or, or_true,
      forall_true_left, List.mem_append, List.not_mem_nil, false_implies, implies_true] at fl fr fb ft hns ⊢ <;>
    intro s hs p hp hn <;>
    simp only [List.mem_cons, List.not_mem_nil, or_false] at hp <;>
    (first | (rcases hs with hs | hs) | skip) <;>
    rw [mem_mseg hs] <;>
    rcases hp with rfl | rfl | rfl | rfl <;>
    first
      | exact absurd hn ‹_›
      | (simp only [sideOf, V2.sub, V2.cross]
         nlinarith)


/-- A cell with one corner above the threshold, and one that is a saddle. -/
example : softCell (1 / 2 : ℚ) ⟨1, 0, 0, 0, 0, 1, 0, 1⟩ = [(⟨1 / 2, 0⟩, ⟨0, 1 / 2⟩)] ∧ sideOf ((⟨1 / 2, 0⟩, ⟨0, 1 / 2⟩) : V2 ℚ × V2 ℚ) ⟨0, 0⟩ = 1 / 4 ∧
    ¬ Saddle (1 / 2 : ℚ) ⟨1, 0, 0, 0, 0, 1, 0, 1⟩ ∧ Saddle (1 / 2 : ℚ) ⟨0, 1, 1, 0, 0, 1, 0, 1⟩ := by
  refine ⟨by decide +kernel, by decide +kernel, ?_, ?_⟩ <;> norm_num [Saddle]

end Cm
