import Verif.Model.Draw
import Verif.Props.Space
import Verif.Props.DetectEdges

/-! # C108: what is drawn is what is there -/

set_option linter.unusedSectionVars false
set_option linter.unusedSimpArgs false
set_option linter.unusedVariables false

namespace Cm
open Spec Draw Sp

variable {K : Type} [Field K] [LinearOrder K] [IsStrictOrderedRing K]

namespace Spec
/-- The points of the plane a call colours, as the names of the methods say: a disc, a thick segment, a polygon with rounding. -/
def Colours : Call K → V2 K → Prop
  | .circle p _ r, x => dist2 x p ≤ r * r
  | .fatSegment a b r, x => ∃ q, OnSegment a b q ∧ dist2 x q ≤ r * r
  | .polygon l r, x => ∃ q, Hull l q ∧ dist2 x q ≤ r * r
  | .segment a b, x => OnSegment a b x
  | .dot s p, x => dist2 x p ≤ s * s
end Spec

theorem colours_core (angle : K) (s : Cls K) (x : V2 K) : Colours (drawShape angle s) x ↔ InShape s x := by
  cases s with
  | circle c =>
    constructor
    · intro h; exact ⟨_, rfl, h⟩
    · rintro ⟨_, rfl, h⟩; exact h
  | segment g => exact Iff.rfl
  | poly p => exact Iff.rfl

/-- **C108.** A shape is drawn where it is: the points coloured are those no farther than the radius from the middle of the figure, moved with the body. -/
theorem C108_shape (M : Mth K) (inf angle : K) (t : Transform K) (s : Figure K) (h : BitVec 64) (x : V2 K) :
    Colours (drawShape angle (cachedShape inf t (s.made M) h).cls) x ↔ ∃ q, s.Mid q ∧ dist2 x (t.apply q) ≤ s.rad * s.rad := by
  rw [colours_core]
  have r : radiusOf (cachedShape inf t (s.made M) h).cls = s.rad := (radius_cache inf t _).trans (figure_radius M s)
  unfold InShape
  rw [r]
  constructor
  · rintro ⟨q, hq, hd⟩
    obtain ⟨p, hp, rfl⟩ := cache_core inf t _ q hq
    exact ⟨p, (figure_localCore M s p).1 hp, hd⟩
  · rintro ⟨q, hq, hd⟩
    exact ⟨t.apply q, core_cache inf t _ q ((figure_localCore M s q).2 hq), hd⟩

theorem springPoint_eq (M : Mth K) (a b v : V2 K) : springPoint M a b v =
    (a.add ((b.sub a).scale v.x)).add ((b.sub a).perp.scale (v.y * (1 / (b.sub a).mag M))) := by
  simp only [springPoint, V2.add, V2.scale, V2.sub, V2.perp, V2.dot]
  ext <;> simp only <;> ring

theorem polyline_chain (l : List (V2 K)) : ∀ a, polyline (a :: l) = (List.zip (a :: l) l).map fun p => Call.segment p.1 p.2 := by
  induction l with
  | nil => intro a; rfl
  | cons b l ih => intro a; simp only [polyline, List.zip_cons_cons, List.map_cons, ih b]

/-- **C108.** A spring between different places is drawn as a connected zigzag from one anchor to the other; every corner lies over its place
along the spring, to the side by its height in the table. -/
theorem C108_spring {M : Mth K} (hM : M.Lawful) (ta tb : Transform K) (a b : V2 K) (hne : ta.apply a ≠ tb.apply b) :
    ∃ verts : List (V2 K), drawJoint M ta tb (.spring a b) = [.dot 5 (ta.apply a), .dot 5 (tb.apply b)] ++ (List.zip verts verts.tail).map (fun p => .segment p.1 p.2) ∧
      verts.length = (springVerts (K := K)).length ∧ verts.head? = some (ta.apply a) ∧ verts.getLast? = some (tb.apply b) ∧
      ∀ (i : Nat) (w v : V2 K), verts[i]? = some w → (springVerts (K := K))[i]? = some v →
        ∃ e : V2 K, w = (At (ta.apply a) (tb.apply b) v.x).add e ∧ e.dot ((tb.apply b).sub (ta.apply a)) = 0 ∧ e.lengthSq = v.y * v.y := by
  simp only [drawJoint]
  generalize ta.apply a = p at *
  generalize tb.apply b = q at *
  refine ⟨springVerts.map (springPoint M p q), ?_, by simp, ?_, ?_, ?_⟩
  · rw [springVerts, List.map_cons, polyline_chain]
    rfl
  · simp only [springVerts, List.map_cons, List.head?_cons, Option.some.injEq]
    rw [springPoint_eq]; ext <;> simp [V2.add, V2.scale]
  · simp only [springVerts, List.map_cons, List.map_nil, List.getLast?_cons_cons, List.getLast?_singleton, Option.some.injEq]
    rw [springPoint_eq]; ext <;> simp [V2.add, V2.scale, V2.sub]
  · intro i w v hw hv
    rw [List.getElem?_map, hv] at hw
    simp only [Option.map_some, Option.some.injEq] at hw
    refine ⟨(q.sub p).perp.scale (v.y * (1 / (q.sub p).mag M)), ?_, ?_, ?_⟩
    · rw [← hw, springPoint_eq]
      simp only [At, V2.add, V2.scale, V2.sub, V2.perp]
      try (ext <;> simp only <;> ring)
    · simp only [V2.dot, V2.perp, V2.scale, V2.sub]; ring
    · have hpos : 0 < (q.sub p).lengthSq := by
        by_contra hn
        have h1 : (q.sub p).x = 0 := by simp only [V2.lengthSq, V2.dot] at hn; nlinarith [mul_self_nonneg (q.sub p).x, mul_self_nonneg (q.sub p).y]
        have h2 : (q.sub p).y = 0 := by simp only [V2.lengthSq, V2.dot] at hn; nlinarith [mul_self_nonneg (q.sub p).x, mul_self_nonneg (q.sub p).y]
        simp only [V2.sub] at h1 h2
        exact hne (V2.ext (by linarith) (by linarith))
      have hs : (q.sub p).mag M * (q.sub p).mag M = (q.sub p).lengthSq := hM.sqrt_sq _ hpos.le
      have hm : (q.sub p).mag M ≠ 0 := by intro h; rw [h] at hs; linarith
      have e : ((q.sub p).perp.scale (v.y * (1 / (q.sub p).mag M))).lengthSq = (q.sub p).lengthSq * (v.y * (1 / (q.sub p).mag M)) ^ 2 := by
        simp only [V2.lengthSq, V2.dot, V2.perp, V2.scale]; ring
      rw [e, ← hs]
      field_simp

/-- **C108.** A contact with places `p` on the one body and `q` on the other is drawn as a line through both if they lie on a common normal: it
starts 2 before `p`, ends 2 behind `q`, and is longer than the gap by 4. -/
theorem C108_contact (n posA posB : V2 K) (places : List (V2 K × V2 K)) (hn : n.lengthSq = 1) :
    (drawHit ⟨n, posA, posB, places.map fun p => (p.1.sub posA, p.2.sub posB)⟩).length = places.length ∧
    ∀ (i : Nat) (p q : V2 K), places[i]? = some (p, q) → ∃ a b : V2 K, (drawHit ⟨n, posA, posB, places.map fun p => (p.1.sub posA, p.2.sub posB)⟩)[i]? = some (.segment a b) ∧
      dist2 a p = 4 ∧ dist2 b q = 4 ∧ (b.sub a).dot n = (q.sub p).dot n + 4 ∧
      ∀ g, 0 ≤ g → q = p.add (n.scale g) → OnSegment a b p ∧ OnSegment a b q := by
  refine ⟨by simp [drawHit], fun i p q h => ⟨p.add (n.scale (-2)), q.add (n.scale 2), ?_, ?_, ?_, ?_, ?_⟩⟩
  · simp only [drawHit, List.getElem?_map, h, Option.map_some, Option.some.injEq, Call.segment.injEq]
    constructor <;> (ext <;> simp [V2.add, V2.sub, V2.scale])
  · simp only [V2.lengthSq, V2.dot] at hn
    simp only [dist2, V2.lengthSq, V2.dot, V2.sub, V2.add, V2.scale]; linear_combination 4 * hn
  · simp only [V2.lengthSq, V2.dot] at hn
    simp only [dist2, V2.lengthSq, V2.dot, V2.sub, V2.add, V2.scale]; linear_combination 4 * hn
  · simp only [V2.lengthSq, V2.dot] at hn
    simp only [V2.dot, V2.sub, V2.add, V2.scale]; linear_combination 4 * hn
  · rintro g hg rfl
    have h4 : 0 < g + 4 := by linarith
    have hne : g + 4 ≠ 0 := h4.ne'
    refine ⟨⟨2 / (g + 4), by positivity, (div_le_one h4).2 (by linarith), ?_⟩, ⟨(g + 2) / (g + 4), by positivity, (div_le_one h4).2 (by linarith), ?_⟩⟩
    all_goals (ext <;> simp only [At, V2.add, V2.sub, V2.scale] <;> field_simp <;> ring)

example : (⟨3 / 5, 4 / 5⟩ : V2 ℚ).lengthSq = 1 ∧ drawHit (⟨⟨1, 0⟩, ⟨0, 0⟩, ⟨3, 0⟩, [(⟨1, 0⟩, ⟨-1, 0⟩)]⟩ : Draw.Hit ℚ) = [.segment ⟨-1, 0⟩ ⟨4, 0⟩] := by decide +kernel

/-- **C108.** Of a space, every shape is drawn exactly once, whether its body sleeps or not, then the joints between awake bodies, each once. -/
theorem C108_space_partial {kind : Nat → Sp.Kind} {ops : List (Sp.Op K)} {s : Sp.St K} (h : ReachedBy kind ops s) (M : Mth K) (flags : Nat) (v : View K) :
    ∃ shapes joints hits : List Nat, drawSpace M flags v s = (shapes.map fun x => drawShape (v.shape x).1 (v.shape x).2) ++
        (joints.flatMap fun c => drawJoint M (v.joint c).1 (v.joint c).2.1 (v.joint c).2.2) ++ (hits.flatMap fun r => drawHit (v.hit r)) ∧
      shapes.Nodup ∧ (∀ x, x ∈ shapes ↔ ((emptyList kind).after ops).shapes x = true) ∧
      joints.Nodup ∧ ∀ c, c ∈ joints ↔ (((emptyList kind).after ops).joints c = true ∧ ¬ asleep s (s.cn c).a ∧ ¬ asleep s (s.cn c).b) := by
  refine ⟨Sp.eachShape s, Sp.eachConstraint s, s.arbiters, ?_, C23_once h, C23_eachShape h, (C77_eachConstraint_partial h).1, (C77_eachConstraint_partial h).2⟩
  simp only [drawSpace, Sp.eachShape, Sp.eachConstraint, List.map_append]

/-- **C108, full statement**: every joint of the space is drawn. It is not if a body of it sleeps: here the pin between bodies 0 and 3 is in the
space, and nothing at all is drawn with a dot. -/
theorem C108_joint_missing (M : Mth ℚ) (v : View ℚ) :
    ReachedBy demoKind demoSleep demoEnd ∧ ((emptyList demoKind).after demoSleep).joints 1 = true ∧
      ∀ size p, Call.dot size p ∉ drawSpace M 7 v demoEnd := by
  refine ⟨demo_reached, by decide +kernel, fun size p hm => ?_⟩
  have hc : demoEnd.cons = [] := by decide +kernel
  simp only [drawSpace, hc, List.mem_append, List.mem_map, List.mem_flatMap, List.not_mem_nil, false_and, exists_false, or_false] at hm
  rcases hm with (⟨x, -, e⟩ | ⟨x, -, e⟩) | ⟨r, -, e⟩
  · cases hs : (v.shape x).2 <;> rw [hs] at e <;> simp [drawShape] at e
  · cases hs : (v.shape x).2 <;> rw [hs] at e <;> simp [drawShape] at e
  · simp only [drawHit, List.mem_map] at e
    obtain ⟨_, _, e⟩ := e
    cases e

/-- **C108, full statement**: the flags of the drawer select what is drawn. They do not: nothing reads them. With flags 0 five shapes are drawn here. -/
theorem C108_flags : (∀ (M : Mth K) (f g : Nat) (v : View K) (s : Sp.St K), drawSpace M f v s = drawSpace M g v s) ∧
    ∀ (M : Mth ℚ) (v : View ℚ), 5 ≤ (drawSpace M 0 v demoEnd).length := by
  refine ⟨fun _ _ _ _ _ => rfl, fun M v => ?_⟩
  have h : demoEnd.dynIdx.length + demoEnd.statIdx.length = 5 := by decide +kernel
  simp only [drawSpace, List.length_append, List.length_map]
  omega

/-- **C108.** A groove is drawn where it is: the line drawn consists of the places of the points of the groove, moved with the first body, and the dot is
where the anchor is on the second; so the dot is on the line exactly when the anchor is in the groove. -/
theorem C108_groove (M : Mth K) (ta tb : Transform K) (a b c : V2 K) : ∃ d p q, drawJoint M ta tb (.groove a b c) = [.dot 5 d, .segment p q] ∧
    (∀ x, OnSegment p q x ↔ ∃ g, OnSegment a b g ∧ x = ta.apply g) ∧ (OnSegment p q d ↔ ∃ g, OnSegment a b g ∧ tb.apply c = ta.apply g) := by
  have h : ∀ x, OnSegment (ta.apply a) (ta.apply b) x ↔ ∃ g, OnSegment a b g ∧ x = ta.apply g := by
    intro x
    constructor
    · rintro ⟨u, h0, h1, rfl⟩; exact ⟨At a b u, ⟨u, h0, h1, rfl⟩, (apply_at ta _ _ u).symm⟩
    · rintro ⟨g, ⟨u, h0, h1, rfl⟩, rfl⟩; exact ⟨u, h0, h1, apply_at ta _ _ u⟩
  exact ⟨_, _, _, rfl, h, h _⟩

/-- The anchor of a body that has moved is in the groove of the other. -/
example : ∃ g, OnSegment (⟨-1, 0⟩ : V2 ℚ) ⟨1, 0⟩ g ∧ (⟨1, 0, 0, 1, 2, 0⟩ : Transform ℚ).apply ⟨0, 0⟩ = (⟨1, 0, 0, 1, 3/2, 0⟩ : Transform ℚ).apply g :=
  ⟨⟨1/2, 0⟩, ⟨3/4, by norm_num, by norm_num, by norm_num [At]⟩, by norm_num [Transform.apply]⟩

/-- A rod on a body moved to the right, and a spring between two places. -/
example : (Transform.apply (⟨1, 0, 0, 1, 2, 0⟩ : Transform ℝ) ⟨0, 0⟩) ≠ (Transform.apply (⟨1, 0, 0, 1, 0, 0⟩ : Transform ℝ) ⟨0, 0⟩) ∧
    Colours (drawShape 0 (cachedShape 1000 (⟨1, 0, 0, 1, 2, 0⟩ : Transform ℝ) ((Figure.rod ⟨-1, 0⟩ ⟨1, 0⟩ 1).made realMth) 2).cls) ⟨4, 0⟩ := by
  refine ⟨by simp [Transform.apply], (C108_shape realMth 1000 0 _ _ _ _).2 ⟨⟨1, 0⟩, ⟨1, by norm_num, le_refl _, by norm_num [At]⟩, ?_⟩⟩
  norm_num [dist2, Transform.apply, Figure.rad]

end Cm
