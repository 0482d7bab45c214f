import Verif.Props.ContactEdges
/-! # C100, continued: rods seen end-on -/
set_option linter.unusedSectionVars false
set_option linter.unusedSimpArgs false
set_option linter.unusedVariables false

namespace Cm
open Spec
variable {K : Type} [Field K] [LinearOrder K] [IsStrictOrderedRing K]

namespace Spec
/-- A rod of some length seen end-on along `n`, with the normal on the right of it and no neighbours. -/
def EndOn (n : V2 K) : Cls K → Prop
  | .segment s => s.tn.dot (s.tb.sub s.ta) = 0 ∧ (s.tb.sub s.ta).cross s.tn < 0 ∧ s.tn.dot n = 0 ∧ s.aTangent = V2.zero ∧ s.bTangent = V2.zero
  | _ => False

/-- The second end of the rod is in front along `n`. -/
def SecondFirst (n : V2 K) : Cls K → Prop
  | .segment s => s.ta.dot n ≤ s.tb.dot n
  | _ => True

/-- The shape goes on from `y` across `n`, to the one side, for at least `tiny`. -/
def GoesOn (tiny : K) (n : V2 K) (s : Cls K) (y : V2 K) : Prop := ∃ q, Core s q ∧ q.dot n = y.dot n ∧ y.cross n + tiny ≤ q.cross n

/-- What the code can cope with: a rod seen end-on by the other shape has its second end in front, or the other shape goes on. -/
def Presents (tiny : K) (c : Closest K) (a b : Cls K) : Prop :=
  (Edged c.n a ∨ EndOn c.n a ∧ SecondFirst c.n a) ∧ (Edged c.n b ∨ EndOn c.n b ∧ SecondFirst c.n.neg b) ∨
  EndOn c.n a ∧ Edged c.n b ∧ GoesOn tiny c.n b c.b ∨
  Edged c.n a ∧ EndOn c.n b ∧ GoesOn tiny c.n a c.a
end Spec

/-- The facts about the support edge of a rod seen end-on. -/
structure LevelEdge (s : Cls K) (n : V2 K) (e : Edge K) : Prop where
  ha : Core s e.ap
  hb : Core s e.bp
  hr : e.r = radiusOf s
  level : e.bp.cross n = e.ap.cross n
  on : ∀ x, Core s x → OnSegment e.ap e.bp x

theorem segment_level (hash : BitVec 64) (s : Segment K) {n : V2 K} (he : EndOn n (.segment s)) : LevelEdge (.segment s) n (s.supportEdge hash n) ∧
    (s.supportEdge hash n).ap = s.tb ∧ (s.supportEdge hash n).bp = s.ta := by
  obtain ⟨h1, h2, h3, -, -⟩ := he
  have c0 : Core (.segment s) s.ta := ⟨0, le_rfl, zero_le_one, by simp [At]⟩
  have c1 : Core (.segment s) s.tb := ⟨1, zero_le_one, le_rfl, by simp [At]⟩
  obtain ⟨d, ed⟩ : ∃ d, d = s.tb.sub s.ta := ⟨_, rfl⟩
  rw [← ed] at h1 h2
  have key : d.cross n * (d.cross s.tn) = 0 := by
    have : d.cross n * (d.cross s.tn) = d.lengthSq * (s.tn.dot n) - (s.tn.dot d) * (d.dot n) := by
      simp only [V2.cross, V2.lengthSq, V2.dot]; ring
    rw [this, h1, h3]; ring
  have lev : d.cross n = 0 := (mul_eq_zero.1 key).resolve_right h2.ne
  unfold Segment.supportEdge
  rw [if_neg (by rw [h3]; exact lt_irrefl _)]
  refine ⟨⟨c1, c0, rfl, ?_, ?_⟩, rfl, rfl⟩
  · show s.ta.cross n = s.tb.cross n
    rw [ed] at lev
    simp only [V2.cross, V2.sub] at lev ⊢; linarith
  · rintro x ⟨t, t0, t1, rfl⟩
    refine ⟨1 - t, by linarith, by linarith, ?_⟩
    simp only [At]; ext <;> simp only <;> ring

theorem endOn_neg {n : V2 K} {s : Cls K} (h : EndOn n s) : EndOn n.neg s := by
  cases s with
  | circle c => exact h
  | segment g =>
    obtain ⟨h1, h2, h3, h4, h5⟩ := h
    refine ⟨h1, h2, ?_, h4, h5⟩
    simp only [V2.dot, V2.neg] at h3 ⊢; linarith
  | poly p => exact h

theorem endOn_alone {n : V2 K} {s : Cls K} (h : EndOn n s) : Alone s := by
  cases s with
  | circle c => exact h
  | segment g => exact h.2.2.2
  | poly p => trivial

theorem clamp01_le {x : K} (h : x ≤ 0) : clamp01 x = 0 := by
  unfold clamp01; rw [min_eq_left (h.trans zero_le_one), max_eq_left h]
theorem clamp01_ge {x : K} (h : 1 ≤ x) : clamp01 x = 1 := by
  unfold clamp01; rw [min_eq_right h, max_eq_right zero_le_one]

/-- Two tries, each facing, one of which is as deep as the shapes overlap. -/
theorem tries {s1 s2 : Cls K} {c : Closest K} (hx : Exact s1 s2 c) {e1 e2 : Edge K} (G1 : Core s1 e1.ap ∧ Core s1 e1.bp ∧ e1.r = radiusOf s1)
    (G2 : Core s2 e2.ap ∧ Core s2 e2.bp ∧ e2.r = radiusOf s2) {u1 u2 w1 w2 T1 T2 : K} (h1 h2 : BitVec 64)
    (B1 : Block e1 e2 c.n (clamp01 u1) (clamp01 u2) T1) (B2 : Block e1 e2 c.n (clamp01 w1) (clamp01 w2) T2) (hd : c.d ≤ radiusOf s1 + radiusOf s2)
    (hone : gapAt e1 e2 c.n (clamp01 u1) (clamp01 u2) ≤ c.d ∨ gapAt e1 e2 c.n (clamp01 w1) (clamp01 w2) ≤ c.d) :
    (∀ k ∈ contactAt c.n e1 e2 u1 u2 h1 ++ contactAt c.n e1 e2 w1 w2 h2, Touching s1 s2 c.n k ∧ c.d - radiusOf s1 - radiusOf s2 ≤ (k.p2.sub k.p1).dot c.n) ∧
    (∃ k ∈ contactAt c.n e1 e2 u1 u2 h1 ++ contactAt c.n e1 e2 w1 w2 h2, (k.p2.sub k.p1).dot c.n = c.d - radiusOf s1 - radiusOf s2) := by
  have hn := hx.unit
  have least : ∀ c1 c2 : K, 0 ≤ c1 ∧ c1 ≤ 1 → 0 ≤ c2 ∧ c2 ≤ 1 → c.d ≤ gapAt e1 e2 c.n c1 c2 := by
    intro c1 c2 h1 h2
    refine hx.least _ _ ?_ ?_
    · rw [core_hull, lerp_at]; exact Hull.mix _ _ _ ((core_hull _ _).1 G1.1) ((core_hull _ _).1 G1.2.1) h1.1 h1.2
    · rw [core_hull, lerp_at]; exact Hull.mix _ _ _ ((core_hull _ _).1 G2.1) ((core_hull _ _).1 G2.2.1) h2.1 h2.2
  have S1 := contactAt_spec hn G1 G2 B1 h1
  have S2 := contactAt_spec hn G1 G2 B2 h2
  have L1 := least _ _ B1.m1 B1.m2
  have L2 := least _ _ B2.m1 B2.m2
  refine ⟨?_, ?_⟩
  · intro k hk
    rcases List.mem_append.1 hk with hk | hk
    · refine ⟨(S1.1 k hk).1, ?_⟩
      rw [(S1.1 k hk).2]; linarith
    · refine ⟨(S2.1 k hk).1, ?_⟩
      rw [(S2.1 k hk).2]; linarith
  · rcases hone with h | h
    · have h := le_antisymm h L1
      have hne := S1.2 (by rw [h]; exact hd)
      obtain ⟨k, l, e⟩ := List.exists_cons_of_ne_nil hne
      have hk : k ∈ contactAt c.n e1 e2 u1 u2 h1 := by rw [e]; simp
      exact ⟨k, List.mem_append_left _ hk, by rw [(S1.1 k hk).2, h]⟩
    · have h := le_antisymm h L2
      have hne := S2.2 (by rw [h]; exact hd)
      obtain ⟨k, l, e⟩ := List.exists_cons_of_ne_nil hne
      have hk : k ∈ contactAt c.n e1 e2 w1 w2 h2 := by rw [e]; simp
      exact ⟨k, List.mem_append_right _ hk, by rw [(S2.1 k hk).2, h]⟩

section
variable {s1 s2 : Cls K} {c : Closest K} (hx : Exact s1 s2 c)
include hx

theorem exact_cross : c.b.cross c.n = c.a.cross c.n := by
  have h1 := congrArg V2.x hx.along
  have h2 := congrArg V2.y hx.along
  simp only [V2.cross, V2.sub, V2.scale] at h1 h2 ⊢
  linear_combination c.n.y * h1 - c.n.x * h2

theorem exact_dot : c.b.dot c.n = c.a.dot c.n + c.d := by
  have h1 := congrArg V2.x hx.along
  have h2 := congrArg V2.y hx.along
  have hn := hx.unit
  simp only [V2.lengthSq, V2.dot, V2.sub, V2.scale] at h1 h2 hn ⊢
  linear_combination c.n.x * h1 + c.n.y * h2 + c.d * hn

theorem exact_far1 (y : V2 K) (hy : Core s1 y) : y.dot c.n ≤ c.a.dot c.n := by
  have := hx.least y c.b hy hx.snd
  rw [show (c.b.sub y).dot c.n = c.b.dot c.n - y.dot c.n by simp only [V2.dot, V2.sub]; ring, exact_dot hx] at this
  linarith

theorem exact_far2 (y : V2 K) (hy : Core s2 y) : c.b.dot c.n ≤ y.dot c.n := by
  have := hx.least c.a y hx.fst hy
  rw [show (y.sub c.a).dot c.n = y.dot c.n - c.a.dot c.n by simp only [V2.dot, V2.sub]; ring] at this
  rw [exact_dot hx]; linarith

/-- The first edge is seen end-on. -/
theorem edges_level1 {e1 e2 : Edge K} (g1 : LevelEdge s1 c.n e1) (g2 : GoodEdge s2 c.n.neg e2) (tiny : K) (ht : 0 < tiny)
    (hok : e1.bp.dot c.n ≤ e1.ap.dot c.n ∨ e1.ap.cross c.n + tiny ≤ e2.bp.cross c.n) : EdgesMeet s1 s2 c e1 e2 tiny := by
  intro info hi hd
  have hcr := exact_cross hx
  have hdot := exact_dot hx
  obtain ⟨ta, ta0, ta1, ea⟩ := g1.on c.a hx.fst
  obtain ⟨tb, tb0, tb1, eb⟩ := g2.far c.b hx.snd (fun y hy => by
    have := exact_far2 hx y hy
    simp only [V2.dot, V2.neg] at this ⊢; linarith)
  have D2 : e2.ap.cross c.n < e2.bp.cross c.n := by
    have := g2.turn
    simp only [V2.cross, V2.sub, V2.neg] at this ⊢; linarith
  have pa : c.a.cross c.n = e1.ap.cross c.n := by
    rw [ea, ← lerp_at, lerp_cross, g1.level]; ring
  have pb : e1.ap.cross c.n = e2.ap.cross c.n + tb * (e2.bp.cross c.n - e2.ap.cross c.n) := by
    rw [← lerp_cross, lerp_at, ← eb, hcr, pa]
  have ha : c.a.dot c.n = e1.ap.dot c.n + ta * (e1.bp.dot c.n - e1.ap.dot c.n) := by rw [← lerp_dot, lerp_at, ← ea]
  have hb : c.b.dot c.n = e2.ap.dot c.n + tb * (e2.bp.dot c.n - e2.ap.dot c.n) := by rw [← lerp_dot, lerp_at, ← eb]
  have r2a : e2.ap.cross c.n ≤ e1.ap.cross c.n := by rw [pb]; nlinarith
  have r2b : e1.ap.cross c.n ≤ e2.bp.cross c.n := by rw [pb]; nlinarith
  have hpar : clamp01 ((e1.ap.cross c.n - e2.ap.cross c.n) * (1 / (e2.bp.cross c.n - e2.ap.cross c.n))) = tb := by
    have : (e1.ap.cross c.n - e2.ap.cross c.n) * (1 / (e2.bp.cross c.n - e2.ap.cross c.n)) = tb := by
      rw [pb]; field_simp [(sub_pos.2 D2).ne']; ring
    rw [this]; unfold clamp01; rw [min_eq_left tb1, max_eq_right tb0]
  unfold contactPoints
  rw [if_neg (by rw [g1.hr, g2.hr]; exact not_lt.2 hd)]
  simp only [guardedInv, g1.level, sub_self, if_true, if_neg (sub_ne_zero.2 (ne_of_gt D2))]
  have lev : ∀ t : K, e1.ap.cross c.n + t * (e1.bp.cross c.n - e1.ap.cross c.n) = e1.ap.cross c.n := by intro t; rw [g1.level]; ring
  refine ⟨trivial, tries hx (T1 := e1.ap.cross c.n) (T2 := e1.ap.cross c.n) ⟨g1.ha, g1.hb, g1.hr⟩ ⟨g2.ha, g2.hb, g2.hr⟩ _ _ ?_ ?_ hd ?_⟩
  · exact ⟨clamp01_mem _, clamp01_mem _, lev _, by rw [hpar]; exact pb.symm⟩
  · exact ⟨clamp01_mem _, clamp01_mem _, lev _, by rw [hpar]; exact pb.symm⟩
  · rw [hpar]
    have w0 : clamp01 ((e2.ap.cross c.n - e1.ap.cross c.n) * (1 / tiny)) = 0 :=
      clamp01_le (mul_nonpos_of_nonpos_of_nonneg (by linarith) (one_div_pos.2 ht).le)
    have gap : ∀ t : K, c.a.dot c.n ≤ e1.ap.dot c.n + t * (e1.bp.dot c.n - e1.ap.dot c.n) → gapAt e1 e2 c.n t tb ≤ c.d := by
      intro t h
      unfold gapAt
      rw [show ∀ x y : V2 K, (y.sub x).dot c.n = y.dot c.n - x.dot c.n by intro x y; simp only [V2.dot, V2.sub]; ring, lerp_dot, lerp_dot]
      linarith
    rcases le_total (e1.bp.dot c.n) (e1.ap.dot c.n) with h | h
    · right
      rw [w0]
      apply gap
      rw [ha]; nlinarith
    · rcases hok with h' | h'
      · right
        rw [w0]
        apply gap
        rw [ha]; nlinarith
      · left
        have w1 : clamp01 ((e2.bp.cross c.n - e1.ap.cross c.n) * (1 / tiny)) = 1 :=
          clamp01_ge (by rw [mul_one_div, le_div_iff₀ ht]; linarith)
        rw [w1]
        apply gap
        rw [ha]; nlinarith

/-- The second edge is seen end-on. -/
theorem edges_level2 {e1 e2 : Edge K} (g1 : GoodEdge s1 c.n e1) (g2 : LevelEdge s2 c.n.neg e2) (tiny : K) (ht : 0 < tiny)
    (hok : e2.ap.dot c.n ≤ e2.bp.dot c.n ∨ e2.ap.cross c.n + tiny ≤ e1.ap.cross c.n) : EdgesMeet s1 s2 c e1 e2 tiny := by
  intro info hi hd
  have hcr := exact_cross hx
  have hdot := exact_dot hx
  have level : e2.bp.cross c.n = e2.ap.cross c.n := by
    have := g2.level
    simp only [V2.cross, V2.neg] at this ⊢; linarith
  obtain ⟨ta, ta0, ta1, ea⟩ := g1.far c.a hx.fst (fun y hy => exact_far1 hx y hy)
  obtain ⟨tb, tb0, tb1, eb⟩ := g2.on c.b hx.snd
  have D1 : e1.bp.cross c.n < e1.ap.cross c.n := by
    have := g1.turn
    simp only [V2.cross, V2.sub] at this ⊢; linarith
  have pb : c.b.cross c.n = e2.ap.cross c.n := by
    rw [eb, ← lerp_at, lerp_cross, level]; ring
  have pa : e2.ap.cross c.n = e1.ap.cross c.n + ta * (e1.bp.cross c.n - e1.ap.cross c.n) := by
    rw [← lerp_cross, lerp_at, ← ea, ← hcr, pb]
  have ha : c.a.dot c.n = e1.ap.dot c.n + ta * (e1.bp.dot c.n - e1.ap.dot c.n) := by rw [← lerp_dot, lerp_at, ← ea]
  have hb : c.b.dot c.n = e2.ap.dot c.n + tb * (e2.bp.dot c.n - e2.ap.dot c.n) := by rw [← lerp_dot, lerp_at, ← eb]
  have r1a : e2.ap.cross c.n ≤ e1.ap.cross c.n := by rw [pa]; nlinarith
  have r1b : e1.bp.cross c.n ≤ e2.ap.cross c.n := by rw [pa]; nlinarith
  have hpar : clamp01 ((e2.ap.cross c.n - e1.ap.cross c.n) * (1 / (e1.bp.cross c.n - e1.ap.cross c.n))) = ta := by
    have : (e2.ap.cross c.n - e1.ap.cross c.n) * (1 / (e1.bp.cross c.n - e1.ap.cross c.n)) = ta := by
      rw [pa]; field_simp [(sub_neg.2 D1).ne]; ring
    rw [this]; unfold clamp01; rw [min_eq_left ta1, max_eq_right ta0]
  unfold contactPoints
  rw [if_neg (by rw [g1.hr, g2.hr]; exact not_lt.2 hd)]
  simp only [guardedInv, level, sub_self, if_true, if_neg (sub_ne_zero.2 (ne_of_lt D1))]
  have lev : ∀ t : K, e2.ap.cross c.n + t * (e2.bp.cross c.n - e2.ap.cross c.n) = e2.ap.cross c.n := by intro t; rw [level]; ring
  refine ⟨trivial, tries hx (T1 := e2.ap.cross c.n) (T2 := e2.ap.cross c.n) ⟨g1.ha, g1.hb, g1.hr⟩ ⟨g2.ha, g2.hb, g2.hr⟩ _ _ ?_ ?_ hd ?_⟩
  · exact ⟨clamp01_mem _, clamp01_mem _, by rw [hpar]; exact pa.symm, lev _⟩
  · exact ⟨clamp01_mem _, clamp01_mem _, by rw [hpar]; exact pa.symm, lev _⟩
  · rw [hpar]
    have w0 : clamp01 ((e1.bp.cross c.n - e2.ap.cross c.n) * (1 / tiny)) = 0 :=
      clamp01_le (mul_nonpos_of_nonpos_of_nonneg (by linarith) (one_div_pos.2 ht).le)
    have gap : ∀ t : K, e2.ap.dot c.n + t * (e2.bp.dot c.n - e2.ap.dot c.n) ≤ c.b.dot c.n → gapAt e1 e2 c.n ta t ≤ c.d := by
      intro t h
      unfold gapAt
      rw [show ∀ x y : V2 K, (y.sub x).dot c.n = y.dot c.n - x.dot c.n by intro x y; simp only [V2.dot, V2.sub]; ring, lerp_dot, lerp_dot]
      linarith
    rcases le_total (e2.ap.dot c.n) (e2.bp.dot c.n) with h | h
    · right
      rw [w0]
      apply gap
      rw [hb]; nlinarith
    · rcases hok with h' | h'
      · right
        rw [w0]
        apply gap
        rw [hb]; nlinarith
      · left
        have w1 : clamp01 ((e1.ap.cross c.n - e2.ap.cross c.n) * (1 / tiny)) = 1 :=
          clamp01_ge (by rw [mul_one_div, le_div_iff₀ ht]; linarith)
        rw [w1]
        apply gap
        rw [hb]; nlinarith

/-- Both edges are seen end-on. -/
theorem edges_level {e1 e2 : Edge K} (g1 : LevelEdge s1 c.n e1) (g2 : LevelEdge s2 c.n.neg e2) (tiny : K)
    (h1 : e1.bp.dot c.n ≤ e1.ap.dot c.n) (h2 : e2.ap.dot c.n ≤ e2.bp.dot c.n) : EdgesMeet s1 s2 c e1 e2 tiny := by
  intro info hi hd
  have hcr := exact_cross hx
  have hdot := exact_dot hx
  have level : e2.bp.cross c.n = e2.ap.cross c.n := by
    have := g2.level
    simp only [V2.cross, V2.neg] at this ⊢; linarith
  obtain ⟨ta, ta0, ta1, ea⟩ := g1.on c.a hx.fst
  obtain ⟨tb, tb0, tb1, eb⟩ := g2.on c.b hx.snd
  have pa : c.a.cross c.n = e1.ap.cross c.n := by
    rw [ea, ← lerp_at, lerp_cross, g1.level]; ring
  have pb : c.b.cross c.n = e2.ap.cross c.n := by
    rw [eb, ← lerp_at, lerp_cross, level]; ring
  have hT : e2.ap.cross c.n = e1.ap.cross c.n := by rw [← pb, hcr, pa]
  have ha : c.a.dot c.n = e1.ap.dot c.n + ta * (e1.bp.dot c.n - e1.ap.dot c.n) := by rw [← lerp_dot, lerp_at, ← ea]
  have hb : c.b.dot c.n = e2.ap.dot c.n + tb * (e2.bp.dot c.n - e2.ap.dot c.n) := by rw [← lerp_dot, lerp_at, ← eb]
  have c0 : clamp01 (0 : K) = 0 := clamp01_le le_rfl
  unfold contactPoints
  rw [if_neg (by rw [g1.hr, g2.hr]; exact not_lt.2 hd)]
  simp only [g1.level, level, hT, sub_self, zero_mul]
  refine ⟨trivial, tries hx (T1 := e1.ap.cross c.n) (T2 := e1.ap.cross c.n) ⟨g1.ha, g1.hb, g1.hr⟩ ⟨g2.ha, g2.hb, g2.hr⟩ _ _ ?_ ?_ hd (Or.inl ?_)⟩
  · rw [c0]; exact ⟨⟨le_rfl, zero_le_one⟩, ⟨le_rfl, zero_le_one⟩, by ring, by rw [hT]; ring⟩
  · rw [c0]; exact ⟨⟨le_rfl, zero_le_one⟩, ⟨le_rfl, zero_le_one⟩, by ring, by rw [hT]; ring⟩
  · rw [c0]
    unfold gapAt
    rw [show ∀ x y : V2 K, (y.sub x).dot c.n = y.dot c.n - x.dot c.n by intro x y; simp only [V2.dot, V2.sub]; ring, lerp_dot, lerp_dot]
    nlinarith
end

theorem endOn_edge (inf : K) (hash : BitVec 64) {n : V2 K} {s : Cls K} (h : EndOn n s) : LevelEdge s n (s.edge inf hash n) ∧
    (SecondFirst n s → (s.edge inf hash n).bp.dot n ≤ (s.edge inf hash n).ap.dot n) := by
  cases s with
  | circle c => exact h.elim
  | segment g =>
    obtain ⟨h1, h2, h3⟩ := segment_level hash g h
    refine ⟨h1, fun hf => ?_⟩
    show (g.supportEdge hash n).bp.dot n ≤ (g.supportEdge hash n).ap.dot n
    rw [h2, h3]; exact hf
  | poly p => exact h.elim

/-- **C100.** As `C100_contacts`, with rods seen end-on as far as the code can cope with them: a rod parallel to the normal must have its second end in front, or
the other shape must go on from the point of contact to the one side. -/
theorem C100_end_on (M : Mth K) (inf tiny B : K) (ht : 0 < tiny) (a b : CShape K) (hord : a.cls.order ≤ b.cls.order) (info : Info K) (hi : info.contacts = [])
    (hw1 : Within B a.cls) (hw2 : Within B b.cls) (hB : 2 * B < inf) (c : Closest K) (hc : c = (gjk M inf ⟨a.cls, b.cls, a.bb, b.bb⟩ info.id).1)
    (hx : Exact a.cls b.cls c) (hp : Presents tiny c a.cls b.cls) :
    ∃ I, collideSorted M inf tiny a b info = some I ∧
      (c.d ≤ radiusOf a.cls + radiusOf b.cls → I.n = c.n ∧
        (∀ k ∈ I.contacts, Touching a.cls b.cls c.n k ∧ c.d - radiusOf a.cls - radiusOf b.cls ≤ (k.p2.sub k.p1).dot c.n) ∧
        (∃ k ∈ I.contacts, (k.p2.sub k.p1).dot c.n = c.d - radiusOf a.cls - radiusOf b.cls)) ∧
      (radiusOf a.cls + radiusOf b.cls < c.d → I.contacts = []) := by
  have dneg : ∀ y : V2 K, y.dot c.n.neg = -(y.dot c.n) := by intro y; simp only [V2.dot, V2.neg]; ring
  have good1 : Edged c.n a.cls → GoodEdge a.cls c.n (a.cls.edge inf a.hash c.n) := fun h => edged_edge inf B a.hash hx.unit h hw1 hB
  have good2 : Edged c.n b.cls → GoodEdge b.cls c.n.neg (b.cls.edge inf b.hash c.n.neg) := fun h => edged_edge inf B b.hash (unit_neg_len hx.unit) (edged_neg h) hw2 hB
  have lev1 : EndOn c.n a.cls → _ := fun h => endOn_edge inf a.hash h
  have lev2 : EndOn c.n b.cls → _ := fun h => endOn_edge inf b.hash (endOn_neg h)
  have hcr := exact_cross hx
  rcases hp with ⟨h1, h2⟩ | ⟨h1, h2, q, hq, hq1, hq2⟩ | ⟨h1, h2, q, hq, hq1, hq2⟩
  · refine contacts_by_edges M inf tiny a b hord info hi c hc (h1.elim edged_alone fun h => endOn_alone h.1) (h2.elim edged_alone fun h => endOn_alone h.1) ?_
    rcases h1 with h1 | ⟨h1, f1⟩ <;> rcases h2 with h2 | ⟨h2, f2⟩
    · exact fun I hI => (C100_edges hx (good1 h1) (good2 h2) tiny I hI).1
    · refine edges_level2 hx (good1 h1) (lev2 h2).1 tiny ht (Or.inl ?_)
      have := (lev2 h2).2 f2
      rw [dneg, dneg] at this; linarith
    · exact edges_level1 hx (lev1 h1).1 (good2 h2) tiny ht (Or.inl ((lev1 h1).2 f1))
    · refine edges_level hx (lev1 h1).1 (lev2 h2).1 tiny ((lev1 h1).2 f1) ?_
      have := (lev2 h2).2 f2
      rw [dneg, dneg] at this; linarith
  · refine contacts_by_edges M inf tiny a b hord info hi c hc (endOn_alone h1) (edged_alone h2) ?_
    have g1 := (lev1 h1).1
    have g2 := good2 h2
    generalize a.cls.edge inf a.hash c.n = e1 at g1 ⊢
    generalize b.cls.edge inf b.hash c.n.neg = e2 at g2 ⊢
    refine edges_level1 hx g1 g2 tiny ht (Or.inr ?_)
    obtain ⟨tq, q0, q1, eq⟩ := g2.far q hq (fun y hy => by rw [dneg, dneg, hq1]; linarith [exact_far2 hx y hy])
    obtain ⟨ta, ta0, ta1, ea⟩ := g1.on c.a hx.fst
    have pa : c.a.cross c.n = e1.ap.cross c.n := by rw [ea, ← lerp_at, lerp_cross, g1.level]; ring
    have D2 : e2.ap.cross c.n < e2.bp.cross c.n := by
      have := g2.turn
      simp only [V2.cross, V2.sub, V2.neg] at this ⊢; linarith
    have pq : q.cross c.n = e2.ap.cross c.n + tq * (e2.bp.cross c.n - e2.ap.cross c.n) := by rw [← lerp_cross, lerp_at, ← eq]
    have : q.cross c.n ≤ e2.bp.cross c.n := by rw [pq]; nlinarith
    linarith
  · refine contacts_by_edges M inf tiny a b hord info hi c hc (edged_alone h1) (endOn_alone h2) ?_
    have g1 := good1 h1
    have g2 := (lev2 h2).1
    generalize a.cls.edge inf a.hash c.n = e1 at g1 ⊢
    generalize b.cls.edge inf b.hash c.n.neg = e2 at g2 ⊢
    refine edges_level2 hx g1 g2 tiny ht (Or.inr ?_)
    obtain ⟨tq, q0, q1, eq⟩ := g1.far q hq (fun y hy => by rw [hq1]; exact exact_far1 hx y hy)
    obtain ⟨tb, tb0, tb1, eb⟩ := g2.on c.b hx.snd
    have level : e2.bp.cross c.n = e2.ap.cross c.n := by
      have := g2.level
      simp only [V2.cross, V2.neg] at this ⊢; linarith
    have pb : c.b.cross c.n = e2.ap.cross c.n := by rw [eb, ← lerp_at, lerp_cross, level]; ring
    have D1 : e1.bp.cross c.n < e1.ap.cross c.n := by
      have := g1.turn
      simp only [V2.cross, V2.sub] at this ⊢; linarith
    have pq : q.cross c.n = e1.ap.cross c.n + tq * (e1.bp.cross c.n - e1.ap.cross c.n) := by rw [← lerp_cross, lerp_at, ← eq]
    have : q.cross c.n ≤ e1.ap.cross c.n := by rw [pq]; nlinarith
    linarith

/-- With no neighbours and the shapes in reach the contacts come from the two support edges. -/
theorem sorted_edges (M : Mth K) (inf tiny : K) (a b : CShape K) (hord : a.cls.order ≤ b.cls.order) (info : Info K)
    (c : Closest K) (hc : c = (gjk M inf ⟨a.cls, b.cls, a.bb, b.bb⟩ info.id).1) (h1 : Alone a.cls) (h2 : Alone b.cls) (hd : c.d ≤ radiusOf a.cls + radiusOf b.cls) :
    collideSorted M inf tiny a b info = some (contactPoints tiny (a.cls.edge inf a.hash c.n) (b.cls.edge inf b.hash c.n.neg) c { info with id := c.id }) := by
  obtain ⟨ac, abb, ah, ar⟩ := a
  obtain ⟨bc, bbb, bh, br⟩ := b
  simp only at *
  have zero : ∀ (v r : V2 K), v = V2.zero → c.n.dot (v.rotate r) = 0 := by rintro v r rfl; simp [V2.dot, V2.rotate, V2.zero]
  cases ac with
  | circle _ => exact h1.elim
  | segment s =>
    cases bc with
    | circle _ => exact h2.elim
    | segment s' =>
      show some (segmentToSegment _ _ _ _ _ _ _ _) = _
      unfold segmentToSegment
      simp only [← hc]
      rw [if_neg (show ¬ c.d > s.radius + s'.radius from not_lt.2 hd), if_pos ⟨Or.inr (zero _ _ h1.1).le, Or.inr (zero _ _ h1.2).le, Or.inr (zero _ _ h2.1).ge, Or.inr (zero _ _ h2.2).ge⟩]
      rfl
    | poly p =>
      show some (segmentToPoly _ _ _ _ _ _ _ _) = _
      unfold segmentToPoly
      simp only [← hc]
      simp only [radiusOf] at hd
      rw [if_pos ⟨by linarith, Or.inr (zero _ _ h1.1).le, Or.inr (zero _ _ h1.2).le⟩]
      rfl
  | poly p =>
    cases bc with
    | circle _ => exact h2.elim
    | segment _ => simp [Cls.order] at hord
    | poly q =>
      show some (polyToPoly _ _ _ _ _ _ _ _) = _
      unfold polyToPoly
      simp only [← hc]
      simp only [radiusOf] at hd
      rw [if_pos (by linarith)]
      rfl

/-- **C100 (violated).** A rod seen end-on with its first end in front, its second end out of reach, and a shape that does not go on from the point of contact to the
one side: no contact at all, however deep the shapes overlap. -/
theorem C100_end_missed (M : Mth K) (inf tiny B : K) (ht : 0 < tiny) (a b : CShape K) (s : Segment K) (ha : a.cls = .segment s) (hord : a.cls.order ≤ b.cls.order)
    (info : Info K) (hi : info.contacts = [])
    (hw2 : Within B b.cls) (hB : 2 * B < inf) (c : Closest K) (hc : c = (gjk M inf ⟨a.cls, b.cls, a.bb, b.bb⟩ info.id).1)
    (hx : Exact a.cls b.cls c) (h1 : EndOn c.n a.cls) (h2 : Edged c.n b.cls) (hstop : ∀ q, Core b.cls q → q.cross c.n ≤ c.b.cross c.n)
    (hd : c.d ≤ radiusOf a.cls + radiusOf b.cls) (hout : radiusOf a.cls + radiusOf b.cls < c.d + (s.ta.sub s.tb).dot c.n) :
    ∃ I, collideSorted M inf tiny a b info = some I ∧ I.contacts = [] := by
  refine ⟨_, sorted_edges M inf tiny a b hord info c hc (endOn_alone h1) (edged_alone h2) hd, ?_⟩
  have dneg : ∀ y : V2 K, y.dot c.n.neg = -(y.dot c.n) := by intro y; simp only [V2.dot, V2.neg]; ring
  have hcr := exact_cross hx
  have hdot := exact_dot hx
  have g2 := edged_edge inf B b.hash (unit_neg_len hx.unit) (edged_neg h2) hw2 hB
  obtain ⟨g1, eap, ebp⟩ : LevelEdge a.cls c.n (a.cls.edge inf a.hash c.n) ∧ (a.cls.edge inf a.hash c.n).ap = s.tb ∧ (a.cls.edge inf a.hash c.n).bp = s.ta := by
    rw [ha] at h1 ⊢
    exact segment_level a.hash s h1
  generalize a.cls.edge inf a.hash c.n = e1 at g1 eap ebp ⊢
  generalize b.cls.edge inf b.hash c.n.neg = e2 at g2 ⊢
  obtain ⟨ta, ta0, ta1, ea⟩ := g1.on c.a hx.fst
  obtain ⟨tb, tb0, tb1, eb⟩ := g2.far c.b hx.snd (fun y hy => by rw [dneg, dneg]; linarith [exact_far2 hx y hy])
  have D2 : e2.ap.cross c.n < e2.bp.cross c.n := by
    have := g2.turn
    simp only [V2.cross, V2.sub, V2.neg] at this ⊢; linarith
  have pa : c.a.cross c.n = e1.ap.cross c.n := by rw [ea, ← lerp_at, lerp_cross, g1.level]; ring
  have pb : c.b.cross c.n = e2.ap.cross c.n + tb * (e2.bp.cross c.n - e2.ap.cross c.n) := by rw [← lerp_cross, lerp_at, ← eb]
  have hle : c.b.cross c.n ≤ e2.bp.cross c.n := by rw [pb]; nlinarith
  have hend : e2.bp.cross c.n = e1.ap.cross c.n := by rw [← pa, ← hcr]; exact le_antisymm (hstop _ g2.hb) hle
  have htb : tb = 1 := by
    have : (1 - tb) * (e2.bp.cross c.n - e2.ap.cross c.n) = 0 := by linear_combination hend - pa - hcr + pb
    rcases mul_eq_zero.1 this with h | h
    · linarith
    · linarith
  have hb : c.b.dot c.n = e2.bp.dot c.n := by rw [eb, htb]; simp [At]
  have front : c.a.dot c.n = e1.bp.dot c.n := by
    have f1 := exact_far1 hx _ g1.hb
    have f2 : c.a.dot c.n = e1.ap.dot c.n + ta * (e1.bp.dot c.n - e1.ap.dot c.n) := by rw [← lerp_dot, lerp_at, ← ea]
    have : 0 ≤ (s.ta.sub s.tb).dot c.n := by linarith
    rw [← eap, ← ebp] at this
    simp only [show ∀ x y : V2 K, (y.sub x).dot c.n = y.dot c.n - x.dot c.n by intro x y; simp only [V2.dot, V2.sub]; ring] at this
    refine le_antisymm ?_ f1
    rw [f2]; nlinarith
  unfold contactPoints
  rw [if_neg (by rw [g1.hr, g2.hr]; exact not_lt.2 hd)]
  simp only [guardedInv, g1.level, hend, sub_self, if_true, zero_mul]
  rw [hend] at D2
  rw [if_neg (sub_ne_zero.2 (ne_of_gt D2)), mul_one_div, div_self (sub_ne_zero.2 (ne_of_gt D2))]
  have w0 : clamp01 ((e2.ap.cross c.n - e1.ap.cross c.n) * (1 / tiny)) = 0 :=
    clamp01_le (mul_nonpos_of_nonpos_of_nonneg (by linarith) (one_div_pos.2 ht).le)
  have none : ∀ u h, clamp01 u = 0 → contactAt c.n e1 e2 u 1 h = [] := by
    intro u h hu
    unfold contactAt
    simp only
    rw [hu, clamp01_ge le_rfl, if_neg]
    rw [not_le]
    have hn := hx.unit
    have l0 : e1.ap.lerp e1.bp 0 = e1.ap := by ext <;> simp [V2.lerp, V2.add, V2.scale]
    have l1 : e2.ap.lerp e2.bp 1 = e2.bp := by ext <;> simp [V2.lerp, V2.add, V2.scale]
    rw [l0, l1]
    have e : (((c.n.scale (-e2.r)).add e2.bp).sub ((c.n.scale e1.r).add e1.ap)).dot c.n = e2.bp.dot c.n - e1.ap.dot c.n - (e1.r + e2.r) * c.n.lengthSq := by
      simp only [V2.dot, V2.sub, V2.add, V2.scale, V2.lengthSq]; ring
    rw [e, hn, g1.hr, g2.hr, ← hb, hdot, front]
    rw [← eap, ← ebp] at hout
    simp only [show ∀ x y : V2 K, (y.sub x).dot c.n = y.dot c.n - x.dot c.n by intro x y; simp only [V2.dot, V2.sub]; ring] at hout
    linarith
  rw [none _ _ (clamp01_le le_rfl), none _ _ w0]
  rfl

/-! ## Example -/

/-- A rod standing a quarter above the middle of the upper side of a box, its first end below. -/
def exPole : CShape ℚ × CShape ℚ :=
  (⟨.segment ((Segment.new gridMth ⟨0, 5/4⟩ ⟨0, 3⟩ (1/2)).cache ⟨1, 0, 0, 1, 0, 0⟩).1, ⟨-1/2, 3/4, 1/2, 7/2⟩, 2, ⟨1, 0⟩⟩,
    ⟨.poly ((newBox gridMth 4 2 0).cache 1000 ⟨1, 0, 0, 1, 0, 0⟩).1, ⟨-2, -1, 2, 1⟩, 1, ⟨1, 0⟩⟩)

/-- The hypotheses of `C100_end_on`: the rod is seen end-on with its first end in front, but the box goes on. -/
example : ∃ c, gjk gridMth 1000 ⟨exPole.1.cls, exPole.2.cls, exPole.1.bb, exPole.2.bb⟩ 0 = (c, .gjkDone) ∧ Exact exPole.1.cls exPole.2.cls c ∧
    Presents (1/1000) c exPole.1.cls exPole.2.cls ∧ ¬ SecondFirst c.n exPole.1.cls ∧ Within 10 exPole.1.cls ∧ Within 10 exPole.2.cls ∧
    exPole.1.cls.order ≤ exPole.2.cls.order := by
  refine ⟨⟨⟨0, 5/4⟩, ⟨0, 1⟩, ⟨0, -1⟩, 1/4, (gjk gridMth 1000 ⟨exPole.1.cls, exPole.2.cls, exPole.1.bb, exPole.2.bb⟩ 0).1.id⟩, by decide +kernel,
    ⟨?_, ?_, by norm_num [V2.lengthSq, V2.dot], by decide +kernel, ?_⟩, Or.inr (Or.inl ⟨?_, ?_, ⟨-2, 1⟩, ?_, by decide +kernel, by decide +kernel⟩), ?_, ?_, ?_, by decide +kernel⟩
  · exact ⟨0, le_rfl, zero_le_one, by decide +kernel⟩
  · rw [show (⟨0, 1⟩ : V2 ℚ) = At ⟨2, 1⟩ ⟨-2, 1⟩ (1/2) by decide +kernel]
    exact Hull.mix _ _ _ (Hull.vert _ (by decide +kernel)) (Hull.vert _ (by decide +kernel)) (by norm_num) (by norm_num)
  · exact least_corners (by decide +kernel)
  · exact ⟨by decide +kernel, by decide +kernel, by decide +kernel, by decide +kernel, by decide +kernel⟩
  · exact exPlanes_edged 0 0 _ _ (by decide +kernel)
  · exact Hull.vert _ (by decide +kernel)
  · show ¬ ((Segment.new gridMth ⟨0, 5/4⟩ ⟨0, 3⟩ (1/2)).cache ⟨1, 0, 0, 1, 0, 0⟩).1.ta.dot ⟨0, -1⟩ ≤ _
    decide +kernel
  · unfold Within; decide +kernel
  · unfold Within; decide +kernel

/-- The rod standing above the end of that side, and the hypotheses of `C100_end_missed`. -/
def exPost : CShape ℚ := ⟨.segment ((Segment.new gridMth ⟨-2, 5/4⟩ ⟨-2, 3⟩ (1/2)).cache ⟨1, 0, 0, 1, 0, 0⟩).1, ⟨-5/2, 3/4, -3/2, 7/2⟩, 2, ⟨1, 0⟩⟩

example : ∃ c s, exPost.cls = .segment s ∧ (gjk gridMth 1000 ⟨exPost.cls, exPole.2.cls, exPost.bb, exPole.2.bb⟩ 0).1 = c ∧ Exact exPost.cls exPole.2.cls c ∧
    EndOn c.n exPost.cls ∧ Edged c.n exPole.2.cls ∧ (∀ q, Core exPole.2.cls q → q.cross c.n ≤ c.b.cross c.n) ∧
    c.d ≤ radiusOf exPost.cls + radiusOf exPole.2.cls ∧ radiusOf exPost.cls + radiusOf exPole.2.cls < c.d + (s.ta.sub s.tb).dot c.n := by
  refine ⟨⟨⟨-2, 5/4⟩, ⟨-2, 1⟩, ⟨0, -1⟩, 1/4, (gjk gridMth 1000 ⟨exPost.cls, exPole.2.cls, exPost.bb, exPole.2.bb⟩ 0).1.id⟩, _, rfl, by decide +kernel,
    ⟨?_, ?_, by norm_num [V2.lengthSq, V2.dot], by decide +kernel, ?_⟩, ?_, ?_, ?_, by decide +kernel, by decide +kernel⟩
  · exact ⟨0, le_rfl, zero_le_one, by decide +kernel⟩
  · exact Hull.vert _ (by decide +kernel)
  · exact least_corners (by decide +kernel)
  · exact ⟨by decide +kernel, by decide +kernel, by decide +kernel, by decide +kernel, by decide +kernel⟩
  · exact exPlanes_edged 0 0 _ _ (by decide +kernel)
  · intro q hq
    have : ∀ v ∈ corners exPole.2.cls, v.cross ⟨0, -1⟩ ≤ (2 : ℚ) := by decide +kernel
    have h2 : (⟨-2, 1⟩ : V2 ℚ).cross ⟨0, -1⟩ = 2 := by norm_num [V2.cross]
    rw [h2]
    rw [core_hull] at hq
    induction hq with
    | vert v hv => exact this v hv
    | mix x y t _ _ h0 h1 hx hy =>
      simp only [V2.cross, At] at hx hy ⊢
      nlinarith

/-- The one contact: the lower end of the rod, a quarter deep. -/
example : (collide gridMth 1000 (1/1000) exPole.1 exPole.2 0).map (fun i => (i.n, i.contacts.map fun k => (k.p1, k.p2))) =
    some (⟨0, -1⟩, [(⟨0, 3/4⟩, ⟨0, 1⟩)]) := by
  decide +kernel

end Cm
