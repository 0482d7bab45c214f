import Verif.Spec.Shapes
import Verif.Props.Joint
/-! # C43: cached boxes contain the shapes -/
set_option linter.unusedSectionVars false
set_option linter.unusedSimpArgs false

namespace Cm
open Spec
variable {K : Type} [Field K] [LinearOrder K] [IsStrictOrderedRing K]

theorem abs_le_of_sq_le (x y r : K) (hr : 0 ≤ r) (h : x ^ 2 + y ^ 2 ≤ r * r) : |x| ≤ r ∧ |y| ≤ r :=
  ⟨abs_le_of_sq_le_sq (by nlinarith [sq_nonneg y]) hr, abs_le_of_sq_le_sq (by nlinarith [sq_nonneg x]) hr⟩

/-- Growing a box by `r` covers everything within `r` of it. -/
theorem inBox_grow (b : BB K) (x q : V2 K) (r : K) (hr : 0 ≤ r) (hq : InBox b q) (h : dist2 x q ≤ r * r) :
    InBox ⟨b.L - r, b.B - r, b.R + r, b.T + r⟩ x := by
  obtain ⟨h1, h2⟩ := abs_le_of_sq_le _ _ r hr h
  rw [abs_le] at h1 h2
  obtain ⟨a1, a2, a3, a4⟩ := hq
  exact ⟨by dsimp only; linarith, by dsimp only; linarith, by dsimp only; linarith, by dsimp only; linarith⟩

theorem lerp_bounds (lo hi u v t : K) (h0 : 0 ≤ t) (h1 : t ≤ 1) (hu : lo ≤ u) (hv : lo ≤ v) (hu' : u ≤ hi) (hv' : v ≤ hi) :
    lo ≤ u + t * (v - u) ∧ u + t * (v - u) ≤ hi := by
  constructor
  · nlinarith
  · nlinarith

/-- Boxes are convex. -/
theorem inBox_at (b : BB K) (p q : V2 K) (t : K) (h0 : 0 ≤ t) (h1 : t ≤ 1) (hp : InBox b p) (hq : InBox b q) :
    InBox b (At p q t) := by
  obtain ⟨a1, a2, a3, a4⟩ := hp
  obtain ⟨b1, b2, b3, b4⟩ := hq
  have hx := lerp_bounds b.L b.R p.x q.x t h0 h1 a1 b1 a2 b2
  have hy := lerp_bounds b.B b.T p.y q.y t h0 h1 a3 b3 a4 b4
  exact ⟨hx.1, hx.2, hy.1, hy.2⟩

theorem inBox_hull (b : BB K) (l : List (V2 K)) (h : ∀ v ∈ l, InBox b v) (x : V2 K) (hx : Hull l x) : InBox b x := by
  induction hx with
  | vert v hv => exact h v hv
  | mix p q t _ _ h0 h1 ihp ihq => exact inBox_at b p q t h0 h1 ihp ihq

theorem foldl_min_le {α : Type} (f : α → K) (l : List α) : ∀ init, (l.foldl (fun m s => min m (f s)) init ≤ init) ∧
    ∀ s ∈ l, l.foldl (fun m s => min m (f s)) init ≤ f s := by
  induction l with
  | nil => intro init; exact ⟨le_refl _, by simp⟩
  | cons a l ih =>
    intro init
    obtain ⟨h1, h2⟩ := ih (min init (f a))
    refine ⟨h1.trans (min_le_left _ _), ?_⟩
    intro s hs
    rcases List.mem_cons.1 hs with rfl | hs
    · exact h1.trans (min_le_right _ _)
    · exact h2 s hs

theorem le_foldl_max {α : Type} (f : α → K) (l : List α) : ∀ init, (init ≤ l.foldl (fun m s => max m (f s)) init) ∧
    ∀ s ∈ l, f s ≤ l.foldl (fun m s => max m (f s)) init := by
  induction l with
  | nil => intro init; exact ⟨le_refl _, by simp⟩
  | cons a l ih =>
    intro init
    obtain ⟨h1, h2⟩ := ih (max init (f a))
    refine ⟨(le_max_left _ _).trans h1, ?_⟩
    intro s hs
    rcases List.mem_cons.1 hs with rfl | hs
    · exact (le_max_right _ _).trans h1
    · exact h2 s hs

theorem foldl_min_attained {α : Type} (f : α → K) (l : List α) : ∀ init,
    l.foldl (fun m s => min m (f s)) init = init ∨ ∃ s ∈ l, l.foldl (fun m s => min m (f s)) init = f s := by
  induction l with
  | nil => intro init; exact Or.inl rfl
  | cons a l ih =>
    intro init
    rcases ih (min init (f a)) with h | ⟨s, hs, h⟩
    · rcases min_choice init (f a) with h' | h'
      · left; rw [List.foldl_cons, h, h']
      · right; exact ⟨a, by simp, by rw [List.foldl_cons, h, h']⟩
    · right; exact ⟨s, by simp [hs], by rw [List.foldl_cons, h]⟩

theorem foldl_max_attained {α : Type} (f : α → K) (l : List α) : ∀ init,
    l.foldl (fun m s => max m (f s)) init = init ∨ ∃ s ∈ l, l.foldl (fun m s => max m (f s)) init = f s := by
  induction l with
  | nil => intro init; exact Or.inl rfl
  | cons a l ih =>
    intro init
    rcases ih (max init (f a)) with h | ⟨s, hs, h⟩
    · rcases max_choice init (f a) with h' | h'
      · left; rw [List.foldl_cons, h, h']
      · right; exact ⟨a, by simp, by rw [List.foldl_cons, h, h']⟩
    · right; exact ⟨s, by simp [hs], by rw [List.foldl_cons, h]⟩

/-- **C43.** For every transform the box returned by `CacheData` contains every point of the shape as cached. -/
theorem C43_box_contains_cached (inf : K) (t : Transform K) (s : Cls K) (hr : 0 ≤ radiusOf s) (x : V2 K)
    (hx : InShape (s.cache inf t).1 x) : InBox (s.cache inf t).2 x := by
  obtain ⟨q, hq, hd⟩ := hx
  cases s with
  | circle c =>
    change q = t.apply c.c at hq
    subst hq
    have h := inBox_grow (K := K) ⟨(t.apply c.c).x, (t.apply c.c).y, (t.apply c.c).x, (t.apply c.c).y⟩ x (t.apply c.c)
      c.radius hr ⟨le_refl _, le_refl _, le_refl _, le_refl _⟩ hd
    exact h
  | segment s =>
    refine inBox_grow (K := K)
      ⟨if (t.apply s.a).x < (t.apply s.b).x then (t.apply s.a).x else (t.apply s.b).x,
        if (t.apply s.a).y < (t.apply s.b).y then (t.apply s.a).y else (t.apply s.b).y,
        if (t.apply s.a).x < (t.apply s.b).x then (t.apply s.b).x else (t.apply s.a).x,
        if (t.apply s.a).y < (t.apply s.b).y then (t.apply s.b).y else (t.apply s.a).y⟩ x q s.radius hr ?_ hd
    change OnSegment (t.apply s.a) (t.apply s.b) q at hq
    obtain ⟨u, h0, h1, rfl⟩ := hq
    apply inBox_at _ _ _ _ h0 h1
    · refine ⟨?_, ?_, ?_, ?_⟩ <;> dsimp only <;> split <;> linarith
    · refine ⟨?_, ?_, ?_, ?_⟩ <;> dsimp only <;> split <;> linarith
  | poly p =>
    set w := p.loc.map fun s => (⟨t.apply s.v0, t.applyVector s.n⟩ : Plane K) with hw
    refine inBox_grow (K := K) ⟨w.foldl (fun l s => min l s.v0.x) inf, w.foldl (fun b s => min b s.v0.y) inf,
      w.foldl (fun r s => max r s.v0.x) (-inf), w.foldl (fun t s => max t s.v0.y) (-inf)⟩ x q p.radius hr ?_ hd
    change Hull (w.map Plane.v0) q at hq
    refine inBox_hull _ _ ?_ q hq
    intro v hv
    obtain ⟨s, hs, rfl⟩ := List.mem_map.1 hv
    exact ⟨(foldl_min_le (fun s : Plane K => s.v0.x) w inf).2 s hs, (le_foldl_max (fun s : Plane K => s.v0.x) w (-inf)).2 s hs,
      (foldl_min_le (fun s : Plane K => s.v0.y) w inf).2 s hs, (le_foldl_max (fun s : Plane K => s.v0.y) w (-inf)).2 s hs⟩

theorem apply_at (t : Transform K) (p q : V2 K) (u : K) : t.apply (At p q u) = At (t.apply p) (t.apply q) u := by
  simp only [Transform.apply, At]
  ext <;> simp only <;> ring

theorem hull_image (t : Transform K) (l : List (V2 K)) (x : V2 K) (h : Hull l x) : Hull (l.map t.apply) (t.apply x) := by
  induction h with
  | vert v hv => exact .vert _ (List.mem_map_of_mem hv)
  | mix p q u _ _ h0 h1 ihp ihq => rw [apply_at]; exact .mix _ _ _ ihp ihq h0 h1

/-- The skeleton cached under a transform is the image of the skeleton. -/
theorem core_cache (inf : K) (t : Transform K) (s : Cls K) (q : V2 K) (h : LocalCore s q) :
    Core (s.cache inf t).1 (t.apply q) := by
  cases s with
  | circle c => change q = c.c at h; subst h; rfl
  | segment s =>
    obtain ⟨u, h0, h1, rfl⟩ := h
    exact ⟨u, h0, h1, apply_at t _ _ u⟩
  | poly p =>
    have := hull_image t _ q h
    change Hull (List.map Plane.v0 (p.loc.map fun s => (⟨t.apply s.v0, t.applyVector s.n⟩ : Plane K))) (t.apply q)
    rw [List.map_map] at this ⊢
    exact this

theorem rigid_dist2 (t : Transform K) (ht : Rigid t) (p q : V2 K) : dist2 (t.apply p) (t.apply q) = dist2 p q := by
  obtain ⟨h, hc, hd⟩ := ht
  simp only [dist2, Transform.apply, hc, hd]
  linear_combination ((p.x - q.x) ^ 2 + (p.y - q.y) ^ 2) * h

theorem radius_cache (inf : K) (t : Transform K) (s : Cls K) : radiusOf (s.cache inf t).1 = radiusOf s := by
  cases s <;> rfl

/-- A point of the shape in body coordinates is, moved by the body's transform, a point of the cached shape. -/
theorem inShape_cache (inf : K) (t : Transform K) (ht : Rigid t) (s : Cls K) (x : V2 K) (h : InLocalShape s x) :
    InShape (s.cache inf t).1 (t.apply x) := by
  obtain ⟨q, hq, hd⟩ := h
  refine ⟨t.apply q, core_cache inf t s q hq, ?_⟩
  rw [rigid_dist2 t ht, radius_cache]
  exact hd

/-- **C43.** For every body placement (rotation and translation) and every point of the shape given in body
coordinates, the point's position in the world lies in the cached box. -/
theorem C43_box_contains_shape (inf : K) (t : Transform K) (ht : Rigid t) (s : Cls K) (hr : 0 ≤ radiusOf s) (x : V2 K)
    (hx : InLocalShape s x) : InBox (s.cache inf t).2 (t.apply x) :=
  C43_box_contains_cached inf t s hr _ (inShape_cache inf t ht s x hx)

/-- **C43.** Overlapping shapes have intersecting boxes. -/
theorem C43_overlap_boxes (inf : K) (t u : Transform K) (s s' : Cls K) (hr : 0 ≤ radiusOf s) (hr' : 0 ≤ radiusOf s')
    (x : V2 K) (hx : InShape (s.cache inf t).1 x) (hx' : InShape (s'.cache inf u).1 x) :
    (s.cache inf t).2.intersects (s'.cache inf u).2 = true := by
  obtain ⟨a1, a2, a3, a4⟩ := C43_box_contains_cached inf t s hr x hx
  obtain ⟨b1, b2, b3, b4⟩ := C43_box_contains_cached inf u s' hr' x hx'
  rw [BB.intersects_iff]
  exact ⟨a1.trans b2, b1.trans a2, a3.trans b4, b3.trans a4⟩

/-- A box is tight around a set when each of its four sides is touched. -/
def Spec.Touched (b : BB K) (S : V2 K → Prop) : Prop :=
  (∃ p, S p ∧ p.x = b.L) ∧ (∃ p, S p ∧ p.x = b.R) ∧ (∃ p, S p ∧ p.y = b.B) ∧ ∃ p, S p ∧ p.y = b.T

theorem touched_grow (b : BB K) (s : Cls K) (h : Touched b (Core s)) :
    Touched ⟨b.L - radiusOf s, b.B - radiusOf s, b.R + radiusOf s, b.T + radiusOf s⟩ (InShape s) := by
  obtain ⟨⟨p1, c1, e1⟩, ⟨p2, c2, e2⟩, ⟨p3, c3, e3⟩, ⟨p4, c4, e4⟩⟩ := h
  refine ⟨⟨⟨p1.x - radiusOf s, p1.y⟩, ⟨p1, c1, ?_⟩, ?_⟩, ⟨⟨p2.x + radiusOf s, p2.y⟩, ⟨p2, c2, ?_⟩, ?_⟩,
    ⟨⟨p3.x, p3.y - radiusOf s⟩, ⟨p3, c3, ?_⟩, ?_⟩, ⟨⟨p4.x, p4.y + radiusOf s⟩, ⟨p4, c4, ?_⟩, ?_⟩⟩
  all_goals first
    | (simp only [dist2]; apply le_of_eq; ring)
    | (simp only [e1, e2, e3, e4])

/-- **C43.** The cached box is the least one: each side is touched by a point of the shape. For a polygon there must
be a vertex, and its vertexes must lie between the floats `±infinity`. -/
theorem C43_box_tight (inf : K) (t : Transform K) (s : Cls K)
    (hp : ∀ p, s = .poly p → p.loc ≠ [] ∧ ∀ pl ∈ p.loc,
      -inf ≤ (t.apply pl.v0).x ∧ (t.apply pl.v0).x ≤ inf ∧ -inf ≤ (t.apply pl.v0).y ∧ (t.apply pl.v0).y ≤ inf) :
    Touched (s.cache inf t).2 (InShape (s.cache inf t).1) := by
  cases s with
  | circle c =>
    refine touched_grow (K := K) ⟨(t.apply c.c).x, (t.apply c.c).y, (t.apply c.c).x, (t.apply c.c).y⟩
      ((Cls.circle c).cache inf t).1 ?_
    exact ⟨⟨_, rfl, rfl⟩, ⟨_, rfl, rfl⟩, ⟨_, rfl, rfl⟩, ⟨_, rfl, rfl⟩⟩
  | segment s =>
    refine touched_grow (K := K)
      ⟨if (t.apply s.a).x < (t.apply s.b).x then (t.apply s.a).x else (t.apply s.b).x,
        if (t.apply s.a).y < (t.apply s.b).y then (t.apply s.a).y else (t.apply s.b).y,
        if (t.apply s.a).x < (t.apply s.b).x then (t.apply s.b).x else (t.apply s.a).x,
        if (t.apply s.a).y < (t.apply s.b).y then (t.apply s.b).y else (t.apply s.a).y⟩ ((Cls.segment s).cache inf t).1 ?_
    have ha : Core ((Cls.segment s).cache inf t).1 (t.apply s.a) := ⟨0, le_refl _, zero_le_one, by simp [At]; rfl⟩
    have hb : Core ((Cls.segment s).cache inf t).1 (t.apply s.b) := ⟨1, zero_le_one, le_refl _, by simp [At]; rfl⟩
    refine ⟨?_, ?_, ?_, ?_⟩ <;> dsimp only <;> split <;> first | exact ⟨_, ha, rfl⟩ | exact ⟨_, hb, rfl⟩
  | poly p =>
    obtain ⟨hne, hin⟩ := hp p rfl
    set w := p.loc.map fun s => (⟨t.apply s.v0, t.applyVector s.n⟩ : Plane K) with hw
    refine touched_grow (K := K) ⟨w.foldl (fun l s => min l s.v0.x) inf, w.foldl (fun b s => min b s.v0.y) inf,
      w.foldl (fun r s => max r s.v0.x) (-inf), w.foldl (fun t s => max t s.v0.y) (-inf)⟩ ((Cls.poly p).cache inf t).1 ?_
    have hin' : ∀ pl ∈ w, -inf ≤ pl.v0.x ∧ pl.v0.x ≤ inf ∧ -inf ≤ pl.v0.y ∧ pl.v0.y ≤ inf := by
      intro pl hpl
      obtain ⟨s, hs, rfl⟩ := List.mem_map.1 hpl
      exact hin s hs
    have hcore : ∀ pl ∈ w, Core ((Cls.poly p).cache inf t).1 pl.v0 := by
      intro pl hpl
      exact .vert _ (List.mem_map_of_mem hpl)
    obtain ⟨w0, hw0⟩ : ∃ pl, pl ∈ w := by
      obtain ⟨x, hx⟩ := List.exists_mem_of_ne_nil _ hne
      exact ⟨_, List.mem_map_of_mem hx⟩
    refine ⟨?_, ?_, ?_, ?_⟩
    · rcases foldl_min_attained (fun s : Plane K => s.v0.x) w inf with h | ⟨s, hs, h⟩
      · exact ⟨w0.v0, hcore _ hw0, le_antisymm ((hin' _ hw0).2.1.trans (le_of_eq h.symm)) ((foldl_min_le (fun s : Plane K => s.v0.x) w inf).2 _ hw0)⟩
      · exact ⟨s.v0, hcore _ hs, h.symm⟩
    · rcases foldl_max_attained (fun s : Plane K => s.v0.x) w (-inf) with h | ⟨s, hs, h⟩
      · exact ⟨w0.v0, hcore _ hw0, le_antisymm ((le_foldl_max (fun s : Plane K => s.v0.x) w (-inf)).2 _ hw0) ((le_of_eq h).trans (hin' _ hw0).1)⟩
      · exact ⟨s.v0, hcore _ hs, h.symm⟩
    · rcases foldl_min_attained (fun s : Plane K => s.v0.y) w inf with h | ⟨s, hs, h⟩
      · exact ⟨w0.v0, hcore _ hw0, le_antisymm ((hin' _ hw0).2.2.2.trans (le_of_eq h.symm)) ((foldl_min_le (fun s : Plane K => s.v0.y) w inf).2 _ hw0)⟩
      · exact ⟨s.v0, hcore _ hs, h.symm⟩
    · rcases foldl_max_attained (fun s : Plane K => s.v0.y) w (-inf) with h | ⟨s, hs, h⟩
      · exact ⟨w0.v0, hcore _ hw0, le_antisymm ((le_foldl_max (fun s : Plane K => s.v0.y) w (-inf)).2 _ hw0) ((le_of_eq h).trans (hin' _ hw0).2.2.1)⟩
      · exact ⟨s.v0, hcore _ hs, h.symm⟩

/-! Examples: a triangle with rounding radius 1 turned by a quarter and moved, one of its inner points, and its box. -/

def exTri : Poly ℚ := ⟨1, [], [⟨⟨0, 0⟩, ⟨0, -1⟩⟩, ⟨⟨4, 0⟩, ⟨0, -1⟩⟩, ⟨⟨0, 2⟩, ⟨-1, 0⟩⟩]⟩
def exTurn : Transform ℚ := ⟨0, 1, -1, 0, 10, 20⟩

example : Rigid exTurn ∧ 0 ≤ radiusOf (Cls.poly exTri) ∧ InLocalShape (Cls.poly exTri) ⟨3, -1⟩ ∧
    ((Cls.poly exTri).cache 1000000 exTurn).2 = ⟨7, 19, 11, 25⟩ := by
  refine ⟨by norm_num [Rigid, exTurn], by norm_num [radiusOf, exTri], ⟨At ⟨0, 0⟩ ⟨4, 0⟩ (3/4), ?_, ?_⟩, by decide +kernel⟩
  · exact .mix _ _ _ (.vert _ (by simp [exTri])) (.vert _ (by simp [exTri])) (by norm_num) (by norm_num)
  · norm_num [dist2, At, radiusOf, exTri]

example : (exTri.loc ≠ [] ∧ ∀ pl ∈ exTri.loc, (-1000000 : ℚ) ≤ (exTurn.apply pl.v0).x ∧ (exTurn.apply pl.v0).x ≤ 1000000 ∧
    (-1000000 : ℚ) ≤ (exTurn.apply pl.v0).y ∧ (exTurn.apply pl.v0).y ≤ 1000000) := by
  decide +kernel

def exDisc : Cls ℚ := .circle (Circle.new 2 ⟨0, 0⟩)
def exBar : Cls ℚ := .segment ⟨⟨2, 0⟩, ⟨5, 0⟩, ⟨0, -1⟩, ⟨0, 0⟩, ⟨0, 0⟩, ⟨0, 0⟩, 1, ⟨0, 0⟩, ⟨0, 0⟩⟩

example : 0 ≤ radiusOf exDisc ∧ 0 ≤ radiusOf exBar ∧ InShape (exDisc.cache 1000 Transform.identity).1 ⟨3/2, 1/2⟩ ∧
    InShape (exBar.cache 1000 Transform.identity).1 ⟨3/2, 1/2⟩ := by
  refine ⟨by norm_num [radiusOf, exDisc, Circle.new], by norm_num [radiusOf, exBar], ⟨⟨0, 0⟩, ?_, ?_⟩, ⟨⟨2, 0⟩, ⟨0, ?_, ?_, ?_⟩, ?_⟩⟩
  all_goals norm_num [Core, Cls.cache, Circle.cache, Segment.cache, Circle.new, Transform.apply, Transform.identity, exDisc, exBar,
    dist2, At, radiusOf]

end Cm
