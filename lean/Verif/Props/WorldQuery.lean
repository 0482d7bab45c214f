import Verif.Model.WorldQuery
import Verif.Props.WorldFound
import Verif.Props.ShapeRaySeg
import Verif.Props.ShapeRayPoly
/-! # C117: queries of the whole simulation answer what is there -/
set_option linter.unusedSectionVars false
set_option linter.unusedSimpArgs false
set_option linter.unusedVariables false

namespace Cm
open Spec BBTree Threads
variable {K : Type} [Field K] [LinearOrder K] [IsStrictOrderedRing K]

namespace Spec
/-- The point `x` belongs to the figure on a body placed by `t`. -/
def Figure.Covers (t : Transform K) (s : Figure K) (x : V2 K) : Prop := ∃ m, s.Mid m ∧ dist2 x (t.apply m) ≤ s.rad * s.rad

/-- The corners are at places of the floats below `infinity`. -/
def Figure.Placed (inf : K) (t : Transform K) : Figure K → Prop
  | .poly verts _ => ∀ v ∈ verts, -inf ≤ (t.apply v).x ∧ (t.apply v).x ≤ inf ∧ -inf ≤ (t.apply v).y ∧ (t.apply v).y ≤ inf
  | _ => True

/-- The corners are nearer to `p` than `infinity`. -/
def Figure.Within (M : Mth K) (inf : K) (t : Transform K) (p : V2 K) : Figure K → Prop
  | .poly verts _ => ∀ v ∈ verts, dist M p (t.apply v) < inf
  | _ => True

/-- The start `a` is farther from the line through the ends of a rod than its radius. -/
def Figure.Beside (t : Transform K) (a : V2 K) : Figure K → Prop
  | .rod p q r => r ^ 2 * dist2 (t.apply p) (t.apply q) < (((t.apply q).sub (t.apply p)).cross (a.sub (t.apply p))) ^ 2
  | _ => True

/-- The figure is not on one side of the box as a whole. -/
def Figure.Across (t : Transform K) (s : Figure K) (q : BB K) : Prop :=
  (∃ x, s.Covers t x ∧ x.x ≤ q.R) ∧ (∃ x, s.Covers t x ∧ q.L ≤ x.x) ∧ (∃ x, s.Covers t x ∧ x.y ≤ q.T) ∧ ∃ x, s.Covers t x ∧ q.B ≤ x.y

/-- The shapes whose body was changed by the user after the shape was last put in its place by `AddShape`, `ReindexShape` or a step. -/
def stale1 (sc : Scene K) (st : Nat → Prop) : WorldOp K → Nat → Prop
  | .step t => fun j => t.dt = 0 ∧ st j
  | .addDyn i => fun j => st j ∧ j ≠ i
  | .addStat i => fun j => st j ∧ j ≠ i
  | .reindex i => fun j => st j ∧ j ≠ i
  | .setBody k _ => fun j => st j ∨ (sc.figs j).body = k
  | _ => st

def staleAfter (sc : Scene K) (ops : List (WorldOp K)) : Nat → Prop := ops.foldl (stale1 sc) fun _ => False

/-- Nothing in the space is stale. -/
def UpToDate (sc : Scene K) (ops : List (WorldOp K)) : Prop := ∀ i, rosterAfter (fun _ => none) ops i ≠ none → ¬ staleAfter sc ops i

/-- Where the body of a shape is. -/
def placeOf (sc : Scene K) (w : World K) (i : Nat) : Transform K := (w.bodies (sc.figs i).body).tr

/-- A shape in the space which the filter accepts and which is no sensor. -/
def Seen (sc : Scene K) (r : Roster) (filter : ShapeFilter) (i : Nat) : Prop := r i ≠ none ∧ (sc.figs i).filter.reject filter = false ∧ (sc.figs i).sensor = false
end Spec

/-! ## One shape -/

theorem covers_iff (M : Mth K) (inf : K) (t : Transform K) (s : Figure K) (h : BitVec 64) (x : V2 K) :
    InShape (cachedShape inf t (s.made M) h).cls x ↔ s.Covers t x := by
  show InShape ((s.made M).cache inf t).1 x ↔ _
  unfold InShape Figure.Covers
  rw [radius_cache, figure_radius]
  constructor
  · rintro ⟨q, hq, hd⟩
    obtain ⟨m, hm, rfl⟩ := cache_core inf t _ q hq
    exact ⟨m, (figure_localCore M s m).1 hm, hd⟩
  · rintro ⟨m, hm, hd⟩
    exact ⟨t.apply m, core_cache inf t _ m ((figure_localCore M s m).2 hm), hd⟩

theorem core_iff (M : Mth K) (inf : K) (t : Transform K) (s : Figure K) (h : BitVec 64) (x : V2 K) :
    Core (cachedShape inf t (s.made M) h).cls x ↔ ∃ m, s.Mid m ∧ x = t.apply m := by
  show Core ((s.made M).cache inf t).1 x ↔ _
  constructor
  · intro hq
    obtain ⟨m, hm, rfl⟩ := cache_core inf t _ x hq
    exact ⟨m, (figure_localCore M s m).1 hm, rfl⟩
  · rintro ⟨m, hm, rfl⟩
    exact core_cache inf t _ m ((figure_localCore M s m).2 hm)

theorem figure_regular {M : Mth K} (hM : M.Lawful) (inf : K) {t : Transform K} (ht : Rigid t) {s : Figure K} (hs : s.Good) (h : BitVec 64) (p : V2 K)
    (hp : s.Within M inf t p) : 0 ≤ radiusOf (cachedShape inf t (s.made M) h).cls ∧ Regular M inf (cachedShape inf t (s.made M) h).cls p := by
  constructor
  · show 0 ≤ radiusOf ((s.made M).cache inf t).1
    rw [radius_cache, figure_radius]; exact figure_rad hs
  · cases s with
    | ball r c => trivial
    | rod a b r =>
      obtain ⟨e1, e2, e3, -⟩ := C95_segment hM t ht a b hs.2 r
      show ((Segment.new M a b r).cache t).1.ta ≠ ((Segment.new M a b r).cache t).1.tb
      rw [e1, e2]; exact e3
    | poly verts r =>
      obtain ⟨o1, o2, o3⟩ := C46_outline hM inf r t ht verts hs.2.1
      refine ⟨o1, fun w hw => ?_⟩
      have : w.v0 ∈ verts.map t.apply := by rw [← o2]; exact List.mem_map_of_mem hw
      obtain ⟨v, hv, e⟩ := List.mem_map.1 this
      rw [← e]; exact hp v hv

theorem across_iff {M : Mth K} (inf : K) {t : Transform K} {s : Figure K} (hs : s.Good) (hp : s.Placed inf t) (h : BitVec 64) (q : BB K) :
    (cachedShape inf t (s.made M) h).bb.intersects q = true ↔ s.Across t q := by
  have hr : 0 ≤ radiusOf (s.made M) := by rw [figure_radius]; exact figure_rad hs
  have hin : ∀ x, s.Covers t x → InBox (cachedShape inf t (s.made M) h).bb x := fun x hx =>
    C43_box_contains_cached inf t _ hr x ((covers_iff M inf t s h x).2 hx)
  have htight : Touched (cachedShape inf t (s.made M) h).bb (InShape (cachedShape inf t (s.made M) h).cls) := by
    refine C43_box_tight inf t (s.made M) fun p e => ?_
    cases s with
    | ball r c => simp [Figure.made] at e
    | rod a b r => simp [Figure.made] at e
    | poly verts r =>
      simp only [Figure.made, Cls.poly.injEq] at e
      have hv : p.loc.map Plane.v0 = verts := by rw [← e]; exact setVertsGo_verts M _ _
      refine ⟨?_, fun pl hpl => ?_⟩
      · rintro h0
        rw [h0] at hv
        have := hs.2.1.1
        rw [← hv] at this
        simp at this
      · exact hp pl.v0 (by rw [← hv]; exact List.mem_map_of_mem hpl)
  rw [BB.intersects_iff]
  constructor
  · rintro ⟨h1, h2, h3, h4⟩
    obtain ⟨⟨p1, c1, e1⟩, ⟨p2, c2, e2⟩, ⟨p3, c3, e3⟩, ⟨p4, c4, e4⟩⟩ := htight
    exact ⟨⟨p1, (covers_iff M inf t s h _).1 c1, by rw [e1]; exact h1⟩, ⟨p2, (covers_iff M inf t s h _).1 c2, by rw [e2]; exact h2⟩,
      ⟨p3, (covers_iff M inf t s h _).1 c3, by rw [e3]; exact h3⟩, ⟨p4, (covers_iff M inf t s h _).1 c4, by rw [e4]; exact h4⟩⟩
  · rintro ⟨⟨p1, c1, e1⟩, ⟨p2, c2, e2⟩, ⟨p3, c3, e3⟩, ⟨p4, c4, e4⟩⟩
    exact ⟨(hin _ c1).1.trans e1, e2.trans (hin _ c2).2.1, (hin _ c3).2.2.1.trans e3, e4.trans (hin _ c4).2.2.2⟩

/-- The number a point query computes for a figure. -/
theorem point_figure {M : Mth K} (hM : M.Lawful) (inf eps : K) {t : Transform K} (ht : Rigid t) {s : Figure K} (hs : s.Good) (h : BitVec 64) (p : V2 K)
    (hp : s.Within M inf t p) :
    let d := ((cachedShape inf t (s.made M) h).cls.pointQuery M inf eps p).dist
    (s.Covers t p ↔ d ≤ 0) ∧ (∀ x, s.Covers t x → d ≤ dist M p x) ∧ (0 < d → ∃ x, s.Covers t x ∧ dist M p x = d) := by
  obtain ⟨hr, hreg⟩ := figure_regular hM inf ht hs h p hp
  obtain ⟨h1, h2⟩ := C46_signed hM inf eps _ hr p hreg
  intro d
  have hd : d = ((cachedShape inf t (s.made M) h).cls.pointQuery M inf eps p).dist := rfl
  rw [← hd] at h1 h2
  have er : radiusOf (cachedShape inf t (s.made M) h).cls = s.rad := by
    show radiusOf ((s.made M).cache inf t).1 = _
    rw [radius_cache, figure_radius]
  rw [er] at h2 hr
  refine ⟨(covers_iff M inf t s h p).symm.trans h1, fun x hx => ?_, fun h0 => ?_⟩
  · rcases le_or_gt d 0 with h0 | h0
    · exact h0.trans (dist_nonneg hM p x)
    · obtain ⟨-, hmin⟩ := h2 h0
      obtain ⟨m, hm, hxm⟩ := hx
      have a1 := hmin (t.apply m) ((core_iff M inf t s h _).2 ⟨m, hm, rfl⟩)
      have a2 := dist_triangle hM p x (t.apply m)
      have a3 := (dist_le_iff hM x (t.apply m) s.rad hr).2 hxm
      linarith
  · obtain ⟨⟨c, hc, e⟩, -⟩ := h2 h0
    obtain ⟨m, hm, rfl⟩ := (core_iff M inf t s h _).1 hc
    set c := t.apply m with hcd
    have hpos : 0 < d + s.rad := by linarith
    have hsq : dist2 p c = (d + s.rad) * (d + s.rad) := by rw [← e]; exact (dist_sq hM p c).symm
    have hk : s.rad / (d + s.rad) * (d + s.rad) = s.rad := div_mul_cancel₀ _ (ne_of_gt hpos)
    set k := s.rad / (d + s.rad) with hkd
    refine ⟨At c p k, ⟨m, hm, ?_⟩, ?_⟩
    · have : dist2 (At c p k) c = k ^ 2 * dist2 p c := by simp only [dist2, At]; ring
      rw [← hcd, this, hsq]
      apply le_of_eq
      calc k ^ 2 * ((d + s.rad) * (d + s.rad)) = (k * (d + s.rad)) * (k * (d + s.rad)) := by ring
        _ = s.rad * s.rad := by rw [hk]
    · refine dist_eq_of_sq hM _ _ _ (le_of_lt h0) ?_
      have : dist2 p (At c p k) = (1 - k) ^ 2 * dist2 p c := by simp only [dist2, At]; ring
      rw [this, hsq]
      calc (1 - k) ^ 2 * ((d + s.rad) * (d + s.rad)) = (d + s.rad - k * (d + s.rad)) * (d + s.rad - k * (d + s.rad)) := by ring
        _ = d * d := by rw [hk]; ring

/-- The fraction a ray cast without radius computes for a figure. -/
theorem ray_figure {M : Mth K} (hM : M.Lawful) (inf eps : K) {t : Transform K} (ht : Rigid t) {s : Figure K} (hs : s.Good) (h : BitVec 64) (a b : V2 K) (hab : a ≠ b)
    (hp : s.Within M inf t a) (hbe : s.Covers t a ∨ s.Beside t a) :
    let q := (cachedShape inf t (s.made M) h).cls.segmentQuery M inf eps a b 0
    (q.hit = true → First (fun u => s.Covers t (At a b u)) q.alpha) ∧ ((∃ u, 0 ≤ u ∧ u < 1 ∧ s.Covers t (At a b u)) → q.hit = true) := by
  obtain ⟨k1, -, -⟩ := point_figure hM inf eps ht hs h a hp
  have hat : At a b 0 = a := by simp [At]
  intro q
  have hq : q = (cachedShape inf t (s.made M) h).cls.segmentQuery M inf eps a b 0 := rfl
  clear_value q
  unfold Cls.segmentQuery at hq
  dsimp only at hq
  by_cases hin : s.Covers t a
  · rw [if_pos (k1.1 hin)] at hq
    rw [hq]
    exact ⟨fun _ => ⟨le_refl _, zero_le_one, by dsimp only; rw [hat]; exact hin, fun u hu _ _ => hu⟩, fun _ => rfl⟩
  · rw [if_neg (fun h => hin (k1.2 h))] at hq
    have hbe := hbe.resolve_left hin
    rw [hq]
    cases s with
    | ball r c =>
      have hout : r * r < dist2 a (t.apply c) := by
        by_contra hcon
        push Not at hcon
        exact hin ⟨c, rfl, hcon⟩
      have hcov : ∀ u, Figure.Covers t (.ball r c) (At a b u) ↔ Touches (t.apply c) (r + 0) a b u := by
        intro u
        constructor
        · rintro ⟨m, rfl, hm⟩; unfold Touches; rw [add_zero]; exact hm
        · intro hm; unfold Touches at hm; rw [add_zero] at hm; exact ⟨c, rfl, hm⟩
      obtain ⟨hpos, h1, h2⟩ := circle_root hM (t.apply c) a b (r + 0) hab (by rw [add_zero]; exact hout)
      have e : (cachedShape inf t (Figure.made M (Figure.ball r c)) h).cls.segmentQueryRaw M a b 0 (SegInfo.blank b) =
        circleSegmentQuery M (t.apply c) r a b 0 (SegInfo.blank b) := rfl
      rw [e]
      simp only [hcov]
      unfold circleSegmentQuery
      dsimp only
      split
      · rename_i hc
        exact ⟨fun _ => (h1 hc).1, fun _ => rfl⟩
      · rename_i hc
        refine ⟨fun h => (by simp [SegInfo.blank] at h), ?_⟩
        rintro ⟨u, u0, u1, hu⟩
        exact absurd (h2 ⟨u, u0, le_of_lt u1, hu⟩) hc
    | rod p q r =>
      obtain ⟨e1, e2, e3, e4, e5, e6, -⟩ := C95_segment hM t ht p q hs.2 r
      set g := ((Segment.new M p q r).cache t).1 with hg
      have hcov : ∀ u, Figure.Covers t (.rod p q r) (At a b u) ↔ TouchesCapsule g.ta g.tb (g.radius + 0) a b u := by
        intro u
        rw [← covers_iff M inf t _ h]
        rw [add_zero]
        exact Iff.rfl
      simp only [hcov]
      have hside : g.radius + 0 < |(g.ta.sub a).dot g.tn| := by
        have hr := hs.1
        rw [add_zero, e4, e1]
        have hb : r ^ 2 * dist2 (t.apply p) (t.apply q) < (((t.apply q).sub (t.apply p)).cross (a.sub (t.apply p))) ^ 2 := hbe
        generalize t.apply p = P at *
        generalize t.apply q = Q at *
        have hdd : 0 < dist2 P Q := by
          rcases (dist2_nonneg P Q).lt_or_eq with h | h
          · exact h
          · exfalso; apply e3
            simp only [dist2] at h
            ext
            · nlinarith [sq_nonneg (P.x - Q.x), sq_nonneg (P.y - Q.y)]
            · nlinarith [sq_nonneg (P.x - Q.x), sq_nonneg (P.y - Q.y)]
        have key : ((Q.sub P).cross (a.sub P)) ^ 2 = dist2 P Q * ((P.sub a).dot g.tn) ^ 2 := by
          simp only [V2.lengthSq, V2.dot, V2.sub] at e5 e6
          simp only [V2.cross, V2.dot, V2.sub, dist2]
          generalize g.tn.x = nx at *
          generalize g.tn.y = ny at *
          have e7 : (Q.x - P.x) = -ny * (nx * (Q.y - P.y) - ny * (Q.x - P.x)) := by linear_combination (-(Q.x - P.x)) * e5 + nx * e6
          have e8 : (Q.y - P.y) = nx * (nx * (Q.y - P.y) - ny * (Q.x - P.x)) := by linear_combination (-(Q.y - P.y)) * e5 + ny * e6
          generalize nx * (Q.y - P.y) - ny * (Q.x - P.x) = l at e7 e8
          have f1 : P.x - Q.x = ny * l := by linear_combination -e7
          have f2 : P.y - Q.y = -(nx * l) := by linear_combination -e8
          have f1' : Q.x - P.x = -(ny * l) := by linear_combination e7
          have f2' : Q.y - P.y = nx * l := by linear_combination e8
          rw [f1, f2, f1', f2']
          linear_combination (-(l ^ 2) * ((P.x - a.x) * nx + (P.y - a.y) * ny) ^ 2) * e5
        rw [key] at hb
        have hb' : r ^ 2 < ((P.sub a).dot g.tn) ^ 2 := by
          by_contra hcon
          push Not at hcon
          have := mul_le_mul_of_nonneg_left hcon (le_of_lt hdd)
          linarith
        rw [← sq_abs ((P.sub a).dot g.tn)] at hb'
        exact lt_of_pow_lt_pow_left₀ 2 (abs_nonneg _) hb'
      obtain ⟨c1, c2⟩ := C79_beside_partial hM g a b 0 (by rw [add_zero, e4]; exact hs.1) hab (by rw [e1, e2]; exact e3)
        (by simp only [V2.lengthSq, V2.dot] at e5; linear_combination e5) (by rw [e1, e2]; exact e6) hside
      exact ⟨fun h => (c1 h).1, c2⟩
    | poly verts r =>
      obtain ⟨o1, o2, o3⟩ := C46_outline hM inf r t ht verts hs.2.1
      set g := ((Poly.new M verts r).cache inf t).1 with hg
      have er : g.radius = r := rfl
      have hcov : ∀ u, Figure.Covers t (.poly verts r) (At a b u) ↔ TouchesHull g.world (g.radius + 0) a b u := by
        intro u
        rw [← covers_iff M inf t _ h]
        rw [add_zero]
        exact Iff.rfl
      simp only [hcov]
      obtain ⟨c1, c2⟩ := C80_poly hM g a b 0 (by rw [add_zero, er]; exact hs.1) hab o1 o3 (by rw [← hcov, hat]; exact hin)
      exact ⟨fun h => (c1 h).1, c2⟩

/-! ## The history -/

/-- A shape that is not stale is cached where its body is. -/
def FreshShapes (sc : Scene K) (r : Roster) (st : Nat → Prop) (w : World K) : Prop :=
  ∀ i, r i ≠ none → ¬ st i → w.shapes i = cachedShape sc.par.inf (placeOf sc w i) (sc.figs i).cls (sc.figs i).hash

theorem run1_fresh {M : Mth K} (hM : M.Lawful) {sc : Scene K} {fig : Nat → Figure K} (hm : Made M sc fig) {r : Roster} {st : Nat → Prop} {w w' : World K}
    (h : Upright sc r w) (hf : FreshShapes sc r st w) (op : WorldOp K) (ho : WOk sc r op) (e : w.run1 M sc op = some w') :
    FreshShapes sc (rosterStep r op) (stale1 sc st op) w' := by
  have cache1 : ∀ (i : Nat) (v : Option Bool) (u : World K), u.shapes = (w.recache sc i).shapes → u.bodies = w.bodies →
      FreshShapes sc (r.set i v) (fun j => st j ∧ j ≠ i) u := by
    intro i v u e1 e2 j hj hs
    unfold placeOf
    rw [e1, e2]
    by_cases hne : j = i
    · rw [hne, recache_at]
    · rw [recache_off sc w hne]
      simp only [Roster.set, if_neg hne] at hj
      exact hf j hj fun h => hs ⟨h, hne⟩
  cases op with
  | step inp =>
    simp only [World.run1, Option.some.injEq] at e
    subst e
    intro i hi hs
    by_cases h0 : inp.dt = 0
    · have : w.step M sc inp = w := by unfold World.step; rw [if_pos h0]
      rw [this]
      exact hf i hi fun h => hs ⟨h0, h⟩
    · obtain ⟨e1, e2, e3, -, e5⟩ := step_frame M sc inp w h0
      obtain ⟨-, hb⟩ := begun_upright hM hm h inp ho
      unfold placeOf
      rw [e2, (e5 _).2.2.2]
      exact hb i hi
  | addDyn i =>
    simp only [World.run1, Option.map_eq_some_iff] at e
    obtain ⟨t, -, rfl⟩ := e
    exact cache1 i _ _ rfl rfl
  | addStat i =>
    simp only [World.run1, Option.map_eq_some_iff] at e
    obtain ⟨t, -, rfl⟩ := e
    exact cache1 i _ _ rfl rfl
  | removeDyn i =>
    simp only [World.run1, Option.map_eq_some_iff] at e
    obtain ⟨t, -, rfl⟩ := e
    intro j hj hs
    simp only [rosterStep, Roster.set] at hj
    split at hj
    · exact absurd rfl hj
    · exact hf j hj hs
  | removeStat i =>
    simp only [World.run1, Option.map_eq_some_iff] at e
    obtain ⟨t, -, rfl⟩ := e
    intro j hj hs
    simp only [rosterStep, Roster.set] at hj
    split at hj
    · exact absurd rfl hj
    · exact hf j hj hs
  | reindex i =>
    simp only [World.run1, Option.some.injEq] at e
    subst e
    have := cache1 i (r i) (w.recache sc i) rfl rfl
    have er : r.set i (r i) = r := by funext j; simp only [Roster.set]; split <;> simp_all
    rw [er] at this
    exact this
  | setBody k b =>
    simp only [World.run1, Option.some.injEq] at e
    subst e
    intro j hj hs
    have hne : (sc.figs j).body ≠ k := fun h => hs (Or.inr h)
    show w.shapes j = cachedShape _ (if (sc.figs j).body = k then b else w.bodies (sc.figs j).body).tr _ _
    rw [if_neg hne]
    exact hf j hj fun h => hs (Or.inl h)
  | setJoints js barred =>
    simp only [World.run1, Option.some.injEq] at e
    subst e
    exact hf

theorem run_fresh {M : Mth K} (hM : M.Lawful) {sc : Scene K} {fig : Nat → Figure K} (hm : Made M sc fig) (ops : List (WorldOp K)) : ∀ (r : Roster) (st : Nat → Prop) (w : World K),
    Upright sc r w → FreshShapes sc r st w → WLegal sc r ops →
    ∃ w', w.run M sc ops = some w' ∧ Upright sc (rosterAfter r ops) w' ∧ FreshShapes sc (rosterAfter r ops) (ops.foldl (stale1 sc) st) w' := by
  induction ops with
  | nil => intro r st w h hf _; exact ⟨w, rfl, h, hf⟩
  | cons op ops ih =>
    intro r st w h hf hl
    obtain ⟨w1, e1, h1⟩ := run1_upright hM hm h op hl.1
    obtain ⟨w2, e2, h2, h3⟩ := ih _ _ _ h1 (run1_fresh hM hm h hf op hl.1 e1) hl.2
    exact ⟨w2, by simp only [World.run, e1, e2], h2, h3⟩

/-- What the queries rely on. -/
structure Standing (sc : Scene K) (r : Roster) (w : World K) : Prop where
  index : ∃ m : Index K, Rel m w.tree ∧ (∀ i, (m i).map (·.1) = r i) ∧ ∀ j k b, m j = some (k, b) → b = (w.shapes j).bb
  shape : ∀ i, r i ≠ none → w.shapes i = cachedShape sc.par.inf (placeOf sc w i) (sc.figs i).cls (sc.figs i).hash
  rigid : ∀ k, Rigid (w.bodies k).tr

theorem run_standing {M : Mth K} (hM : M.Lawful) {sc : Scene K} {fig : Nat → Figure K} (hm : Made M sc fig) (bodies : Nat → Body K) (shapes : Nat → CShape K)
    (hb : ∀ k, Rigid (bodies k).tr) (hs : ∀ i, (shapes i).bb.L ≤ (shapes i).bb.R ∧ (shapes i).bb.B ≤ (shapes i).bb.T) (ops : List (WorldOp K))
    (hl : WLegal sc (fun _ => none) ops) (hu : UpToDate sc ops) :
    ∃ w, (World.init bodies shapes).run M sc ops = some w ∧ Standing sc (rosterAfter (fun _ => none) ops) w := by
  obtain ⟨w, e, h1, h2⟩ := run_fresh hM hm ops _ (fun _ => False) _ (init_upright sc bodies shapes hb hs) (fun i hi => absurd rfl hi) hl
  exact ⟨w, e, h1.index, fun i hi => h2 i hi (hu i hi), h1.rigid⟩

theorem isSome_roster {m : Index K} {r : Roster} (h : ∀ i, (m i).map (·.1) = r i) (i : Nat) : (m i).isSome = true ↔ r i ≠ none := by
  rw [← h i]; cases m i <;> simp

/-! ## Boxes -/

theorem standing_box {M : Mth K} {sc : Scene K} {fig : Nat → Figure K} (hm : Made M sc fig) {r : Roster} {w : World K} (h : Standing sc r w)
    (hp : ∀ i, r i ≠ none → (fig i).Placed sc.par.inf (placeOf sc w i)) (q : BB K) (filter : ShapeFilter) :
    (w.bbQuery sc q filter).Nodup ∧
    ∀ i, i ∈ w.bbQuery sc q filter ↔ r i ≠ none ∧ (sc.figs i).filter.reject filter = false ∧ (fig i).Across (placeOf sc w i) q := by
  obtain ⟨m, hr, hm1, hm2⟩ := h.index
  obtain ⟨h1, h2⟩ := bbquery_rel hr q filter (fun i => (w.shapes i).bb) (fun i => (sc.figs i).filter) fun i k b hb => (hm2 i k b hb).symm
  refine ⟨h1, fun i => (h2 i).trans ?_⟩
  rw [isSome_roster hm1]
  refine and_congr_right fun hi => and_congr_right fun _ => ?_
  rw [h.shape i hi, (hm i).2]
  exact across_iff sc.par.inf (hm i).1 (hp i hi) _ q

/-! ## Points -/

theorem nearest_visits (M : Mth K) (eps : K) (sc : Scene K) (w : World K) (p : V2 K) (filter : ShapeFilter) (l : List Nat) : ∀ out : Option Nat × PointInfo K,
    let ok := fun i : Nat => (sc.figs i).filter.reject filter = false ∧ (sc.figs i).sensor = false
    let q := fun i : Nat => (w.shapes i).cls.pointQuery M sc.par.inf eps p
    let res := l.foldl (w.nearestVisit M eps sc p filter) out
    res.2.dist ≤ out.2.dist ∧ (∀ i ∈ l, ok i → res.2.dist ≤ (q i).dist) ∧ (res = out ∨ ∃ i ∈ l, ok i ∧ res = (some i, q i) ∧ (q i).dist < out.2.dist) := by
  induction l with
  | nil => intro out; simp
  | cons a l ih =>
    intro out
    dsimp only
    obtain ⟨h1, h2, h3⟩ := ih (w.nearestVisit M eps sc p filter out a)
    have hv : (w.nearestVisit M eps sc p filter out a).2.dist ≤ out.2.dist ∧
        (((sc.figs a).filter.reject filter = false ∧ (sc.figs a).sensor = false) →
          (w.nearestVisit M eps sc p filter out a).2.dist ≤ ((w.shapes a).cls.pointQuery M sc.par.inf eps p).dist) ∧
        (w.nearestVisit M eps sc p filter out a = out ∨ ((sc.figs a).filter.reject filter = false ∧ (sc.figs a).sensor = false) ∧
          w.nearestVisit M eps sc p filter out a = (some a, (w.shapes a).cls.pointQuery M sc.par.inf eps p) ∧
          ((w.shapes a).cls.pointQuery M sc.par.inf eps p).dist < out.2.dist) := by
      unfold World.nearestVisit
      split
      · rename_i h
        simp only [Bool.and_eq_true, Bool.not_eq_true'] at h
        dsimp only
        split
        · rename_i hlt
          exact ⟨le_of_lt hlt, fun _ => le_refl _, Or.inr ⟨h, rfl, hlt⟩⟩
        · rename_i hlt
          exact ⟨le_refl _, fun _ => not_lt.1 hlt, Or.inl rfl⟩
      · rename_i h
        simp only [Bool.and_eq_true, Bool.not_eq_true'] at h
        exact ⟨le_refl _, fun h' => absurd h' h, Or.inl rfl⟩
    obtain ⟨v1, v2, v3⟩ := hv
    rw [List.foldl_cons]
    refine ⟨h1.trans v1, ?_, ?_⟩
    · intro s hs hok
      rcases List.mem_cons.1 hs with rfl | hs
      · exact h1.trans (v2 hok)
      · exact h2 s hs hok
    · rcases h3 with h3 | ⟨s, hs, hok, he, hlt⟩
      · rw [h3]
        rcases v3 with v3 | ⟨hok, he, hlt⟩
        · exact Or.inl v3
        · exact Or.inr ⟨a, by simp, hok, he, hlt⟩
      · exact Or.inr ⟨s, List.mem_cons_of_mem _ hs, hok, he, lt_of_lt_of_le hlt v1⟩

theorem root_reports {m : Index K} {s : BBTree.State K} (hr : Rel m s) (q : BB K) :
    (∀ i ∈ queryRoot q s.dyn ++ queryRoot q s.stat, (m i).isSome = true) ∧
    ∀ i k b, m i = some (k, b) → b.intersects q = true → i ∈ queryRoot q s.dyn ++ queryRoot q s.stat := by
  rw [queryRoot_eq q _ hr.ok.td, queryRoot_eq q _ hr.ok.ts]
  constructor
  · intro i hmem
    rcases List.mem_append.1 hmem with hmem | hmem
    · obtain ⟨l, hl, rfl⟩ := mem_ids.1 hmem
      obtain ⟨b, hb⟩ := hr.d2 l (List.mem_filter.1 hl).1
      simp [hb]
    · obtain ⟨l, hl, rfl⟩ := mem_ids.1 hmem
      obtain ⟨b, hb⟩ := hr.s2 l (List.mem_filter.1 hl).1
      simp [hb]
  · intro i k b hb h2
    cases k with
    | true =>
      obtain ⟨l, hl, e, hc⟩ := hr.d1 i b hb
      exact List.mem_append_left _ (mem_ids.2 ⟨l, List.mem_filter.2 ⟨hl, intersects_of_contains hc (contains_refl q) h2⟩, e⟩)
    | false =>
      obtain ⟨l, hl, e, hc⟩ := hr.s1 i b hb
      exact List.mem_append_right _ (mem_ids.2 ⟨l, List.mem_filter.2 ⟨hl, intersects_of_contains hc (contains_refl q) h2⟩, e⟩)

theorem standing_nearest {M : Mth K} (hM : M.Lawful) (eps : K) {sc : Scene K} {fig : Nat → Figure K} (hm : Made M sc fig) {r : Roster} {w : World K} (h : Standing sc r w)
    (p : V2 K) (hp : ∀ i, r i ≠ none → (fig i).Within M sc.par.inf (placeOf sc w i) p) (maxD : K) (filter : ShapeFilter) :
    let res := w.nearest M eps sc p maxD filter
    (res.1 = none ∧ ∀ j, Seen sc r filter j → ∀ x, (fig j).Covers (placeOf sc w j) x → maxD ≤ dist M p x) ∨
    ∃ i, res.1 = some i ∧ Seen sc r filter i ∧ res.2.dist < maxD ∧ ((fig i).Covers (placeOf sc w i) p ↔ res.2.dist ≤ 0) ∧
      (0 < res.2.dist → ∃ x, (fig i).Covers (placeOf sc w i) x ∧ dist M p x = res.2.dist) ∧
      ∀ j, Seen sc r filter j → ∀ x, (fig j).Covers (placeOf sc w j) x → res.2.dist ≤ dist M p x := by
  obtain ⟨m, hr, hm1, hm2⟩ := h.index
  intro res
  have hres : res = (queryRoot (nearestBox p maxD) w.tree.dyn ++ queryRoot (nearestBox p maxD) w.tree.stat).foldl (w.nearestVisit M eps sc p filter)
      (none, ⟨V2.zero, maxD, V2.zero⟩) := by rw [List.foldl_append]; rfl
  clear_value res
  obtain ⟨h1, h2, h3⟩ := nearest_visits M eps sc w p filter (queryRoot (nearestBox p maxD) w.tree.dyn ++ queryRoot (nearestBox p maxD) w.tree.stat)
    (none, ⟨V2.zero, maxD, V2.zero⟩)
  obtain ⟨g1, g2⟩ := root_reports hr (nearestBox p maxD)
  rw [← hres] at h1 h2 h3
  have pt : ∀ i, r i ≠ none → let d := ((w.shapes i).cls.pointQuery M sc.par.inf eps p).dist
      ((fig i).Covers (placeOf sc w i) p ↔ d ≤ 0) ∧ (∀ x, (fig i).Covers (placeOf sc w i) x → d ≤ dist M p x) ∧
        (0 < d → ∃ x, (fig i).Covers (placeOf sc w i) x ∧ dist M p x = d) := by
    intro i hi
    rw [h.shape i hi, (hm i).2]
    exact point_figure hM sc.par.inf eps (h.rigid _) (hm i).1 _ p (hp i hi)
  have hin : ∀ i, r i ≠ none → ((w.shapes i).cls.pointQuery M sc.par.inf eps p).dist < maxD →
      i ∈ queryRoot (nearestBox p maxD) w.tree.dyn ++ queryRoot (nearestBox p maxD) w.tree.stat := by
    intro i hi hlt
    obtain ⟨⟨k, b⟩, hb⟩ := Option.isSome_iff_exists.1 ((isSome_roster hm1 i).2 hi)
    refine g2 i k b hb ?_
    rw [hm2 i k b hb]
    rw [h.shape i hi, (hm i).2] at hlt ⊢
    obtain ⟨q1, q2⟩ := figure_regular hM sc.par.inf (h.rigid _) (hm i).1 (sc.figs i).hash p (hp i hi)
    refine near_box hM sc.par.inf eps p maxD _ _ q1 q2 (fun x hx => ?_) hlt
    exact C43_box_contains_cached sc.par.inf _ _ (by rw [figure_radius]; exact figure_rad (hm i).1) x hx
  have hall : ∀ j, Seen sc r filter j → ∀ x, (fig j).Covers (placeOf sc w j) x → res.2.dist ≤ dist M p x := by
    intro j hj x hx
    have hd := (pt j hj.1).2.1 x hx
    rcases lt_or_ge ((w.shapes j).cls.pointQuery M sc.par.inf eps p).dist maxD with hlt | hge
    · exact (h2 j (hin j hj.1 hlt) hj.2).trans hd
    · exact (h1.trans hge).trans hd
  rcases h3 with h3 | ⟨i, hi, hok, he, hlt⟩
  · left
    rw [h3] at hall ⊢
    exact ⟨rfl, hall⟩
  · right
    have hri := (isSome_roster hm1 i).1 (g1 i hi)
    obtain ⟨p1, -, p3⟩ := pt i hri
    rw [he] at hall ⊢
    exact ⟨i, rfl, ⟨hri, hok⟩, hlt, p1, p3, hall⟩

/-! ## Rays -/

theorem ray_inside {M : Mth K} (hM : M.Lawful) (eps : K) {sc : Scene K} {fig : Nat → Figure K} (hm : Made M sc fig) {r : Roster} {w : World K} (h : Standing sc r w)
    (a b : V2 K) (hab : a ≠ b) (filter : ShapeFilter) (sensors : Bool)
    (hp : ∀ i, r i ≠ none → (fig i).Within M sc.par.inf (placeOf sc w i) a ∧ ((fig i).Covers (placeOf sc w i) a ∨ (fig i).Beside (placeOf sc w i) a)) (i : Nat) (hi : r i ≠ none) :
    (∀ α, w.rayHit M eps sc sensors a b 0 filter i = some α → ((sc.figs i).filter.reject filter = false ∧ (sensors = false → (sc.figs i).sensor = false)) ∧
      First (fun u => (fig i).Covers (placeOf sc w i) (At a b u)) α ∧ InBox (w.shapes i).bb (At a b α)) ∧
    (((sc.figs i).filter.reject filter = false ∧ (sensors = false → (sc.figs i).sensor = false)) → ∀ u, 0 ≤ u → u < 1 → (fig i).Covers (placeOf sc w i) (At a b u) →
      ∃ α, w.rayHit M eps sc sensors a b 0 filter i = some α ∧ α ≤ u) := by
  obtain ⟨k1, k2⟩ := ray_figure hM sc.par.inf eps (h.rigid (sc.figs i).body) (hm i).1 (sc.figs i).hash a b hab (hp i hi).1 (hp i hi).2
  have hsh := h.shape i hi
  rw [(hm i).2] at hsh
  have hbox : ∀ x, (fig i).Covers (placeOf sc w i) x → InBox (w.shapes i).bb x := by
    intro x hx
    rw [hsh]
    exact C43_box_contains_cached sc.par.inf _ _ (by rw [figure_radius]; exact figure_rad (hm i).1) x ((covers_iff M sc.par.inf _ _ (sc.figs i).hash x).2 hx)
  have hacc : (!(sc.figs i).filter.reject filter && (sensors || !(sc.figs i).sensor)) = true ↔
      ((sc.figs i).filter.reject filter = false ∧ (sensors = false → (sc.figs i).sensor = false)) := by
    cases (sc.figs i).filter.reject filter <;> cases sensors <;> cases (sc.figs i).sensor <;> simp
  unfold World.rayHit
  dsimp only
  rw [hsh]
  constructor
  · intro α hα
    split at hα
    · rename_i hc
      split at hα
      · rename_i hhit
        have e := Option.some.inj hα
        have hf := k1 hhit
        change First (fun u => (fig i).Covers (placeOf sc w i) (At a b u)) (((cachedShape sc.par.inf (placeOf sc w i) ((fig i).made M) (sc.figs i).hash).cls.segmentQuery M sc.par.inf eps a b 0).alpha) at hf
        rw [e] at hf
        rw [← hsh]
        exact ⟨hacc.1 hc, hf, hbox _ hf.2.2.1⟩
      · cases hα
    · cases hα
  · intro hc u u0 u1 hu
    rw [if_pos (hacc.2 hc)]
    have hhit := k2 ⟨u, u0, u1, hu⟩
    have hf := k1 hhit
    change ((cachedShape sc.par.inf (placeOf sc w i) ((fig i).made M) (sc.figs i).hash).cls.segmentQuery M sc.par.inf eps a b 0).hit = true at hhit
    rw [if_pos hhit]
    exact ⟨_, rfl, hf.2.2.2 u u0 (le_of_lt u1) hu⟩

theorem standing_ray {M : Mth K} (hM : M.Lawful) (eps : K) {sc : Scene K} (hinf : 1 < sc.par.inf) {fig : Nat → Figure K} (hm : Made M sc fig) {r : Roster} {w : World K}
    (h : Standing sc r w) (a b : V2 K) (hab : a ≠ b) (filter : ShapeFilter)
    (hp : ∀ i, r i ≠ none → (fig i).Within M sc.par.inf (placeOf sc w i) a ∧ ((fig i).Covers (placeOf sc w i) a ∨ (fig i).Beside (placeOf sc w i) a)) :
    let res := w.rayFirst M eps sc a b 0 filter
    (res.shape = none ∧ res.alpha = 1 ∧ ∀ j, Seen sc r filter j → ∀ u, 0 ≤ u → u < 1 → ¬ (fig j).Covers (placeOf sc w j) (At a b u)) ∨
    ∃ i, res.shape = some i ∧ Seen sc r filter i ∧ res.alpha < 1 ∧ First (fun u => (fig i).Covers (placeOf sc w i) (At a b u)) res.alpha ∧
      ∀ j, Seen sc r filter j → ∀ u, 0 ≤ u → u ≤ 1 → (fig j).Covers (placeOf sc w j) (At a b u) → res.alpha ≤ u := by
  obtain ⟨m, hr, hm1, hm2⟩ := h.index
  have key := fun i hi => ray_inside hM eps hm h a b hab filter false hp i hi
  have hseen : ∀ i, Seen sc r filter i ↔ r i ≠ none ∧ ((sc.figs i).filter.reject filter = false ∧ (false = false → (sc.figs i).sensor = false)) := by
    intro i; simp [Seen]
  intro res
  have hfirst := first_hit_rel sc.par.inf hinf hr a b (w.rayHit M eps sc false a b 0 filter) (by
    intro i k bx α hb hα
    have hi := (isSome_roster hm1 i).1 (by rw [hb]; rfl)
    obtain ⟨-, hf, hbx⟩ := (key i hi).1 α hα
    rw [hm2 i k bx hb]
    exact ⟨hf.1, hf.2.1, hbx⟩)
  change ((res.shape = none ∧ _) ∨ _) at hfirst
  rcases hfirst with ⟨e1, e2, e3⟩ | ⟨i, e1, e2, e3, e4, e5⟩
  · left
    refine ⟨e1, e2, fun j hj u u0 u1 hu => ?_⟩
    obtain ⟨α, hα, hle⟩ := (key j hj.1).2 ((hseen j).1 hj).2 u u0 u1 hu
    have := e3 j α ((isSome_roster hm1 j).2 hj.1) hα
    linarith
  · right
    have hi := (isSome_roster hm1 i).1 e2
    obtain ⟨f1, f2, -⟩ := (key i hi).1 _ e3
    refine ⟨i, e1, (hseen i).2 ⟨hi, f1⟩, e4, f2, fun j hj u u0 u1 hu => ?_⟩
    rcases lt_or_eq_of_le u1 with hlt | rfl
    · obtain ⟨α, hα, hle⟩ := (key j hj.1).2 ((hseen j).1 hj).2 u u0 hlt hu
      exact (e5 j α ((isSome_roster hm1 j).2 hj.1) hα).trans hle
    · exact le_of_lt e4

theorem standing_rays {M : Mth K} (hM : M.Lawful) (eps : K) {sc : Scene K} (hinf : 1 < sc.par.inf) {fig : Nat → Figure K} (hm : Made M sc fig) {r : Roster} {w : World K}
    (h : Standing sc r w) (a b : V2 K) (hab : a ≠ b) (filter : ShapeFilter)
    (hp : ∀ i, r i ≠ none → (fig i).Within M sc.par.inf (placeOf sc w i) a ∧ ((fig i).Covers (placeOf sc w i) a ∨ (fig i).Beside (placeOf sc w i) a)) :
    let res := w.rayAll M eps sc a b 0 filter
    (res.map Prod.fst).Nodup ∧
    (∀ i α, (i, α) ∈ res → r i ≠ none ∧ (sc.figs i).filter.reject filter = false ∧ First (fun u => (fig i).Covers (placeOf sc w i) (At a b u)) α) ∧
    ∀ i, r i ≠ none → (sc.figs i).filter.reject filter = false → ∀ u, 0 ≤ u → u < 1 → (fig i).Covers (placeOf sc w i) (At a b u) → ∃ α, (i, α) ∈ res := by
  obtain ⟨m, hr, hm1, hm2⟩ := h.index
  have key := fun i hi => ray_inside hM eps hm h a b hab filter true hp i hi
  intro res
  obtain ⟨e1, e2, e3⟩ := all_hits_rel sc.par.inf hinf hr a b (w.rayHit M eps sc true a b 0 filter) (by
    intro i k bx α hb hα
    have hi := (isSome_roster hm1 i).1 (by rw [hb]; rfl)
    obtain ⟨-, hf, hbx⟩ := (key i hi).1 α hα
    rw [hm2 i k bx hb]
    exact ⟨hf.1, hf.2.1, hbx⟩)
  refine ⟨e1, fun i α hmem => ?_, fun i hi hacc u u0 u1 hu => ?_⟩
  · obtain ⟨g1, g2⟩ := e2 i α hmem
    have hi := (isSome_roster hm1 i).1 g1
    obtain ⟨f1, f2, -⟩ := (key i hi).1 α g2
    exact ⟨hi, f1.1, f2⟩
  · obtain ⟨α, hα, hle⟩ := (key i hi).2 ⟨hacc, by simp⟩ u u0 u1 hu
    exact ⟨α, e3 i α ((isSome_roster hm1 i).2 hi) hα (lt_of_le_of_lt hle u1)⟩

/-! ## The statements -/

/-- **C117 (boxes).** After any history that keeps the rules, if no shape in the space is stale, `BBQuery` reports a shape exactly when it is in the space, the filter
accepts it, and the figure, where its body is now, does not lie on one side of the box as a whole; and it reports none twice. -/
theorem C117_box {M : Mth K} (hM : M.Lawful) {sc : Scene K} {fig : Nat → Figure K} (hm : Made M sc fig) (bodies : Nat → Body K) (shapes : Nat → CShape K)
    (hb : ∀ k, Rigid (bodies k).tr) (hs : ∀ i, (shapes i).bb.L ≤ (shapes i).bb.R ∧ (shapes i).bb.B ≤ (shapes i).bb.T) (ops : List (WorldOp K))
    (hl : WLegal sc (fun _ => none) ops) (hu : UpToDate sc ops) :
    let r := rosterAfter (fun _ => none) ops
    ∃ w, (World.init bodies shapes).run M sc ops = some w ∧ ((∀ i, r i ≠ none → (fig i).Placed sc.par.inf (placeOf sc w i)) → ∀ (q : BB K) (filter : ShapeFilter),
      (w.bbQuery sc q filter).Nodup ∧
      ∀ i, i ∈ w.bbQuery sc q filter ↔ r i ≠ none ∧ (sc.figs i).filter.reject filter = false ∧ (fig i).Across (placeOf sc w i) q) := by
  obtain ⟨w, e, h⟩ := run_standing hM hm bodies shapes hb hs ops hl hu
  exact ⟨w, e, fun hp q filter => standing_box hm h hp q filter⟩

/-- **C117 (points).** `PointQueryNearest`: if it reports no shape, every accepted figure is at least `maxDistance` away from the point; otherwise the figure reported is
accepted, its distance is the number reported, it contains the point exactly when the number is not positive, and no accepted figure is nearer. -/
theorem C117_nearest {M : Mth K} (hM : M.Lawful) (eps : K) {sc : Scene K} {fig : Nat → Figure K} (hm : Made M sc fig) (bodies : Nat → Body K) (shapes : Nat → CShape K)
    (hb : ∀ k, Rigid (bodies k).tr) (hs : ∀ i, (shapes i).bb.L ≤ (shapes i).bb.R ∧ (shapes i).bb.B ≤ (shapes i).bb.T) (ops : List (WorldOp K))
    (hl : WLegal sc (fun _ => none) ops) (hu : UpToDate sc ops) :
    let r := rosterAfter (fun _ => none) ops
    ∃ w, (World.init bodies shapes).run M sc ops = some w ∧
      ∀ p : V2 K, (∀ i, r i ≠ none → (fig i).Within M sc.par.inf (placeOf sc w i) p) → ∀ (maxD : K) (filter : ShapeFilter),
      let res := w.nearest M eps sc p maxD filter
      (res.1 = none ∧ ∀ j, Seen sc r filter j → ∀ x, (fig j).Covers (placeOf sc w j) x → maxD ≤ dist M p x) ∨
      ∃ i, res.1 = some i ∧ Seen sc r filter i ∧ res.2.dist < maxD ∧ ((fig i).Covers (placeOf sc w i) p ↔ res.2.dist ≤ 0) ∧
        (0 < res.2.dist → ∃ x, (fig i).Covers (placeOf sc w i) x ∧ dist M p x = res.2.dist) ∧
        ∀ j, Seen sc r filter j → ∀ x, (fig j).Covers (placeOf sc w j) x → res.2.dist ≤ dist M p x := by
  obtain ⟨w, e, h⟩ := run_standing hM hm bodies shapes hb hs ops hl hu
  exact ⟨w, e, fun p hp maxD filter => standing_nearest hM eps hm h p hp maxD filter⟩

/-- **C117 (rays).** `SegmentQueryFirst` with radius 0, when the start is in or beside each rod (see `C79_level` for others): if it reports no shape, no accepted figure
is met before the end; otherwise the figure reported is accepted, the fraction is the least one at which the ray is in it, and no accepted figure is met before.
`SegmentQuery` reports each accepted figure, sensors too, that is met before the end, none twice and each with its least fraction. -/
theorem C117_ray {M : Mth K} (hM : M.Lawful) (eps : K) {sc : Scene K} (hinf : 1 < sc.par.inf) {fig : Nat → Figure K} (hm : Made M sc fig) (bodies : Nat → Body K)
    (shapes : Nat → CShape K) (hb : ∀ k, Rigid (bodies k).tr) (hs : ∀ i, (shapes i).bb.L ≤ (shapes i).bb.R ∧ (shapes i).bb.B ≤ (shapes i).bb.T) (ops : List (WorldOp K))
    (hl : WLegal sc (fun _ => none) ops) (hu : UpToDate sc ops) :
    let r := rosterAfter (fun _ => none) ops
    ∃ w, (World.init bodies shapes).run M sc ops = some w ∧
      ∀ a b : V2 K, a ≠ b → (∀ i, r i ≠ none → (fig i).Within M sc.par.inf (placeOf sc w i) a ∧ ((fig i).Covers (placeOf sc w i) a ∨ (fig i).Beside (placeOf sc w i) a)) →
      ∀ filter : ShapeFilter,
      (let res := w.rayFirst M eps sc a b 0 filter
      (res.shape = none ∧ res.alpha = 1 ∧ ∀ j, Seen sc r filter j → ∀ u, 0 ≤ u → u < 1 → ¬ (fig j).Covers (placeOf sc w j) (At a b u)) ∨
      ∃ i, res.shape = some i ∧ Seen sc r filter i ∧ res.alpha < 1 ∧ First (fun u => (fig i).Covers (placeOf sc w i) (At a b u)) res.alpha ∧
        ∀ j, Seen sc r filter j → ∀ u, 0 ≤ u → u ≤ 1 → (fig j).Covers (placeOf sc w j) (At a b u) → res.alpha ≤ u) ∧
      let res := w.rayAll M eps sc a b 0 filter
      (res.map Prod.fst).Nodup ∧
      (∀ i α, (i, α) ∈ res → r i ≠ none ∧ (sc.figs i).filter.reject filter = false ∧ First (fun u => (fig i).Covers (placeOf sc w i) (At a b u)) α) ∧
      ∀ i, r i ≠ none → (sc.figs i).filter.reject filter = false → ∀ u, 0 ≤ u → u < 1 → (fig i).Covers (placeOf sc w i) (At a b u) → ∃ α, (i, α) ∈ res := by
  obtain ⟨w, e, h⟩ := run_standing hM hm bodies shapes hb hs ops hl hu
  exact ⟨w, e, fun a b hab hp filter => ⟨standing_ray hM eps hinf hm h a b hab filter hp, standing_rays hM eps hinf hm h a b hab filter hp⟩⟩

/-! ## Examples -/

/-- The history of two balls above a rod leaves nothing stale, although the user moved a ball which was taken out. -/
theorem exAbove_upToDate : WLegal exAbove (fun _ => none) exAboveDo ∧ UpToDate exAbove exAboveDo := by
  refine ⟨((legal_append exAbove _ _ _).1 exAbove_hyps.2.2.1).1, fun i hi hst => ?_⟩
  simp only [staleAfter, exAboveDo, List.foldl_cons, List.foldl_nil, stale1] at hst
  simp only [rosterAfter, exAboveDo, List.foldl_cons, List.foldl_nil, rosterStep, Roster.set] at hi
  obtain ⟨h1, h2⟩ := hst
  rcases h1 with h1 | h1
  · exact h1.2.1.1.1
  · have h3 : i % 3 = 0 := h1
    by_cases h4 : i = 1
    · subst h4; simp at h3
    · by_cases h5 : i = 2
      · subst h5; simp at h3
      · simp [h2, h4, h5] at hi

example : ∃ w, (World.init exAboveBodies fun _ => ⟨.circle ⟨⟨0, 0⟩, ⟨0, 0⟩, 0⟩, ⟨0, 0, 0, 0⟩, 0, ⟨1, 0⟩⟩).run realMth exAbove exAboveDo = some w ∧
    ((∀ i, rosterAfter (fun _ => none) exAboveDo i ≠ none → (exAboveFig i).Placed exAbove.par.inf (placeOf exAbove w i)) → ∀ (q : BB ℝ) (filter : ShapeFilter), (w.bbQuery exAbove q filter).Nodup ∧
      ∀ i, i ∈ w.bbQuery exAbove q filter ↔ rosterAfter (fun _ => none) exAboveDo i ≠ none ∧ (exAbove.figs i).filter.reject filter = false ∧ (exAboveFig i).Across (placeOf exAbove w i) q) :=
  C117_box realMth_lawful exAbove_hyps.1 exAboveBodies _ exAbove_hyps.2.1 (fun _ => ⟨le_refl _, le_refl _⟩) exAboveDo exAbove_upToDate.1 exAbove_upToDate.2

/-- One ball of radius 1. -/
def exLoneScene : Scene ℚ :=
  ⟨fun _ => ⟨.circle (Circle.new 1 ⟨0, 0⟩), 0, ⟨0#64, 1#64, 1#64⟩, ⟨0, 0, ⟨0, 0⟩⟩, false, 1#64⟩, ⟨100000, 1/10, 1/2, 1, ⟨0, -1⟩, 2⟩, 1/1000, 3, fun _ _ => false⟩
def exLoneAt (x : ℚ) : Body ℚ := { Body.blank with m := 1, mInv := 1, i := 1, iInv := 1, p := ⟨x, 0⟩, tr := ⟨1, 0, 0, 1, x, 0⟩ }
def exLoneWorld (ops : List (WorldOp ℚ)) : Option (World ℚ) :=
  (World.init (fun _ => exLoneAt 0) fun _ => ⟨.circle ⟨⟨0, 0⟩, ⟨0, 0⟩, 0⟩, ⟨0, 0, 0, 0⟩, 0, ⟨1, 0⟩⟩).run gridMth exLoneScene ops

/-- **C117 (stale shapes).** A body moved by the user takes its shape along for the queries only after `ReindexShape`: before, the ray meets it where it was. -/
theorem C117_stale :
    ((exLoneWorld [.addDyn 0, .setBody 0 (exLoneAt 10)]).map fun w =>
      ((w.nearest gridMth 0 exLoneScene ⟨12, 0⟩ 3 ⟨0#64, 1#64, 1#64⟩).1, (w.rayFirst gridMth 0 exLoneScene ⟨-4, 0⟩ ⟨16, 0⟩ 0 ⟨0#64, 1#64, 1#64⟩).alpha)) = some (none, 3/20) ∧
    ((exLoneWorld [.addDyn 0, .setBody 0 (exLoneAt 10), .reindex 0]).map fun w =>
      ((w.nearest gridMth 0 exLoneScene ⟨12, 0⟩ 3 ⟨0#64, 1#64, 1#64⟩).1, (w.rayFirst gridMth 0 exLoneScene ⟨-4, 0⟩ ⟨16, 0⟩ 0 ⟨0#64, 1#64, 1#64⟩).alpha)) = some (some 0, 13/20) ∧
    ((exLoneWorld [.addDyn 0, .setBody 0 (exLoneAt 10), .reindex 0]).map fun w =>
      (w.bbQuery exLoneScene ⟨11, -1, 12, 1⟩ ⟨0#64, 1#64, 1#64⟩, w.rayAll gridMth 0 exLoneScene ⟨-4, 0⟩ ⟨16, 0⟩ 0 ⟨0#64, 1#64, 1#64⟩)) = some ([0], [(0, 13/20)]) := by
  refine ⟨?_, ?_, ?_⟩ <;> decide +kernel

end Cm
