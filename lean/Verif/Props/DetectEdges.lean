import Verif.Props.Detect
import Verif.Props.ContactEnds
/-! # C102: balls, rods and polygons get contacts exactly when they touch -/
set_option linter.unusedSectionVars false
set_option linter.unusedSimpArgs false
set_option linter.unusedVariables false

namespace Cm
open Spec BBTree Threads
variable {K : Type} [Field K] [LinearOrder K] [IsStrictOrderedRing K]

namespace Spec
/-- A disc about a point of the body, a segment between two points of it, or a convex polygon, thickened by a radius. -/
inductive Figure (K : Type) where
  | ball (r : K) (c : V2 K)
  | rod (a b : V2 K) (r : K)
  | poly (verts : List (V2 K)) (r : K)

/-- The radius is not negative, the ends of a rod are different, a polygon is strictly convex, counter-clockwise and has at most 256 corners. -/
def Figure.Good : Figure K → Prop
  | .ball r _ => 0 ≤ r
  | .rod a b r => 0 ≤ r ∧ a ≠ b
  | .poly verts r => 0 ≤ r ∧ ConvexCCW verts ∧ verts.length ≤ 256

def Figure.rad : Figure K → K
  | .ball r _ => r
  | .rod _ _ r => r
  | .poly _ r => r

/-- The middle of the figure in the coordinates of its body. -/
def Figure.Mid : Figure K → V2 K → Prop
  | .ball _ c, x => x = c
  | .rod a b _, x => OnSegment a b x
  | .poly verts _, x => Hull verts x

/-- The class made by the constructor for the figure. -/
def Figure.made (M : Mth K) : Figure K → Cls K
  | .ball r c => .circle (Circle.new r c)
  | .rod a b r => .segment (Segment.new M a b r)
  | .poly verts r => .poly (Poly.new M verts r)

/-- A ball and a ball, or a ball and a rod. -/
def Figure.Easy : Figure K → Figure K → Prop
  | .ball _ _, .ball _ _ => True
  | .ball _ _, .rod _ _ _ => True
  | .rod _ _ _, .ball _ _ => True
  | _, _ => False

/-- Two figures on bodies placed by `t` and `u` touch: two points of their middles are no farther apart than the sum of the radii; for a ball
and a ball or rod they have to be nearer than that. -/
def Figure.Touch (t u : Transform K) (s s' : Figure K) : Prop :=
  ∃ p q, s.Mid p ∧ s'.Mid q ∧ dist2 (t.apply p) (u.apply q) ≤ (s.rad + s'.rad) * (s.rad + s'.rad) ∧
    (Figure.Easy s s' → dist2 (t.apply p) (u.apply q) < (s.rad + s'.rad) * (s.rad + s'.rad))

/-- A rod is not parallel to `n`. -/
def NotEndOn (n : V2 K) : Cls K → Prop
  | .segment s => (s.tb.sub s.ta).cross n ≠ 0
  | _ => True

/-- A rod parallel to the normal that was found has its second end in front, or the other shape is no such rod and goes on from the point of contact to
the one side. -/
def EndsClear (tiny : K) (c : Closest K) (a b : Cls K) : Prop :=
  (NotEndOn c.n a ∨ SecondFirst c.n a) ∧ (NotEndOn c.n b ∨ SecondFirst c.n.neg b) ∨
  NotEndOn c.n b ∧ GoesOn tiny c.n b c.b ∨ NotEndOn c.n a ∧ GoesOn tiny c.n a c.a

/-- The search for the closest points of the two shapes, started from the guess `id`, stops by itself with an answer that can be used, and the
rods parallel to the normal it found are placed as the code can cope with. -/
def SearchSettled (M : Mth K) (inf tiny : K) (a b : CShape K) (id : Nat) : Prop :=
  ∃ c st, gjk M inf ⟨a.cls, b.cls, a.bb, b.bb⟩ id = (c, st) ∧ (st = .gjkDone ∧ c.d ≠ 0 ∨ st = .epaDone ∧ c.n ≠ V2.zero) ∧
    EndsClear tiny c a.cls b.cls
end Spec

/-! ## One pair -/

theorem cache_core (inf : K) (t : Transform K) (s : Cls K) (x : V2 K) (h : Core (s.cache inf t).1 x) : ∃ q, LocalCore s q ∧ x = t.apply q := by
  cases s with
  | circle c => exact ⟨c.c, rfl, h⟩
  | segment s =>
    obtain ⟨u, h0, h1, rfl⟩ := h
    exact ⟨At s.a s.b u, ⟨u, h0, h1, rfl⟩, (apply_at t _ _ u).symm⟩
  | poly p =>
    have e : ((Cls.poly p).cache inf t).1 = .poly (p.cache inf t).1 := rfl
    rw [e] at h
    have hw : (p.cache inf t).1.world.map Plane.v0 = (p.loc.map Plane.v0).map t.apply := by
      simp only [Poly.cache, List.map_map]
      rfl
    have h' : Hull ((p.cache inf t).1.world.map Plane.v0) x := h
    rw [hw] at h'
    clear h
    have : ∃ q, Hull (p.loc.map Plane.v0) q ∧ x = t.apply q := by
      induction h' with
      | vert v hv =>
        obtain ⟨w, hw, rfl⟩ := List.mem_map.1 hv
        exact ⟨w, .vert _ hw, rfl⟩
      | mix a b u _ _ h0 h1 iha ihb =>
        obtain ⟨a', ha, rfl⟩ := iha
        obtain ⟨b', hb, rfl⟩ := ihb
        exact ⟨At a' b' u, .mix _ _ _ ha hb h0 h1, (apply_at t _ _ u).symm⟩
    exact this

theorem figure_localCore (M : Mth K) (s : Figure K) (x : V2 K) : LocalCore (s.made M) x ↔ s.Mid x := by
  cases s with
  | ball r c => exact Iff.rfl
  | rod a b r => exact Iff.rfl
  | poly verts r =>
    show Hull ((setVertsGo M _ verts).map Plane.v0) x ↔ _
    rw [setVertsGo_verts]
    exact Iff.rfl

theorem figure_radius (M : Mth K) (s : Figure K) : radiusOf (s.made M) = s.rad := by cases s <;> rfl
theorem figure_rad {s : Figure K} (h : s.Good) : 0 ≤ s.rad := by
  cases s with
  | ball r c => exact h
  | rod a b r => exact h.1
  | poly verts r => exact h.1

theorem Spec.Figure.Easy.symm {s s' : Figure K} (h : Figure.Easy s s') : Figure.Easy s' s := by cases s <;> cases s' <;> exact h

theorem Spec.Figure.Touch.symm {t u : Transform K} {s s' : Figure K} (h : s.Touch t u s') : s'.Touch u t s := by
  obtain ⟨p, q, hp, hq, h, h'⟩ := h
  exact ⟨q, p, hq, hp, by rw [dist2_comm, add_comm s'.rad]; exact h, fun he => by rw [dist2_comm, add_comm s'.rad]; exact h' he.symm⟩

/-- With a true answer of the search, the distance is within the radii exactly when two points are. -/
theorem exact_near {s1 s2 : Cls K} {c : Closest K} (hx : Exact s1 s2 c) (hin : c.d ≤ 0 → ∃ x, Core s1 x ∧ Core s2 x) {R : K} (hR : 0 ≤ R) :
    c.d ≤ R ↔ ∃ x y, Core s1 x ∧ Core s2 y ∧ dist2 x y ≤ R * R := by
  constructor
  · intro h
    rcases le_or_gt c.d 0 with hd | hd
    · obtain ⟨x, h1, h2⟩ := hin hd
      refine ⟨x, x, h1, h2, ?_⟩
      have : dist2 x x = 0 := by simp only [dist2]; ring
      rw [this]; exact mul_nonneg hR hR
    · refine ⟨c.a, c.b, hx.fst, hx.snd, ?_⟩
      have e : dist2 c.a c.b = (c.b.sub c.a).lengthSq := by simp only [dist2, V2.lengthSq, V2.dot, V2.sub]; ring
      have e2 : (c.n.scale c.d).lengthSq = c.d * c.d * c.n.lengthSq := by simp only [V2.lengthSq, V2.dot, V2.scale]; ring
      rw [e, hx.along, e2, hx.unit, mul_one]
      exact mul_le_mul h h hd.le hR
  · rintro ⟨x, y, h1, h2, h⟩
    by_contra hn
    rw [not_le] at hn
    have := hx.least x y h1 h2
    have cs : ((y.sub x).dot c.n) * ((y.sub x).dot c.n) ≤ dist2 x y * c.n.lengthSq := by
      have e : dist2 x y * c.n.lengthSq - ((y.sub x).dot c.n) * ((y.sub x).dot c.n) = ((y.sub x).cross c.n) ^ 2 := by
        simp only [dist2, V2.lengthSq, V2.dot, V2.sub, V2.cross]; ring
      nlinarith [sq_nonneg ((y.sub x).cross c.n)]
    rw [hx.unit, mul_one] at cs
    have h3 : R < (y.sub x).dot c.n := by linarith
    nlinarith

theorem settled_exact {M : Mth K} (hM : M.Lawful) (inf B : K) (a b : CShape K) (id : Nat) (hs1 : corners a.cls ≠ []) (hs2 : corners b.cls ≠ [])
    (hw1 : Within B a.cls) (hw2 : Within B b.cls) (hinf : 8 * (B * B) < inf) (hc1 : (corners a.cls).length ≤ 256) (hc2 : (corners b.cls).length ≤ 256)
    (c : Closest K) (st : Stop) (h : gjk M inf ⟨a.cls, b.cls, a.bb, b.bb⟩ id = (c, st)) (hst : st = .gjkDone ∧ c.d ≠ 0 ∨ st = .epaDone ∧ c.n ≠ V2.zero) :
    Exact a.cls b.cls c ∧ (c.d ≤ 0 → ∃ x, Core a.cls x ∧ Core b.cls x) := by
  rcases hst with ⟨rfl, hd⟩ | ⟨rfl, hn⟩
  · obtain ⟨h1, h2⟩ := C100_apart hM inf B ⟨a.cls, b.cls, a.bb, b.bb⟩ ⟨hs1, hs2⟩ hw1 hw2 hinf id c h hd
    exact ⟨h1, fun hle => absurd hle (not_le.2 h2)⟩
  · refine ⟨(C100_inside hM inf B ⟨a.cls, b.cls, a.bb, b.bb⟩ ⟨hs1, hs2⟩ hw1 hw2 hinf hc1 hc2 id c h hn).1, fun _ => ?_⟩
    exact (C45_epa hM inf B ⟨a.cls, b.cls, a.bb, b.bb⟩ ⟨hs1, hs2⟩ hw1 hw2 hinf hc1 hc2 id c h).1

theorem figure_corners (M : Mth K) (inf : K) (t : Transform K) {s : Figure K} (hs : s.Good) (h : BitVec 64) :
    corners (cachedShape inf t (s.made M) h).cls ≠ [] ∧ (corners (cachedShape inf t (s.made M) h).cls).length ≤ 256 := by
  cases s with
  | ball r c => simp [cachedShape, Figure.made, Cls.cache, corners]
  | rod a b r => simp [cachedShape, Figure.made, Cls.cache, corners]
  | poly verts r =>
    have e : corners (cachedShape inf t ((Figure.poly verts r).made M) h).cls = verts.map t.apply := by
      show ((Poly.new M verts r).cache inf t).1.world.map Plane.v0 = _
      have : ((Poly.new M verts r).cache inf t).1.world.map Plane.v0 = ((Poly.new M verts r).loc.map Plane.v0).map t.apply := by
        simp only [Poly.cache, List.map_map]; rfl
      rw [this]
      show ((setVertsGo M _ verts).map Plane.v0).map t.apply = _
      rw [setVertsGo_verts]
    rw [e]
    have h3 := hs.2.1.1
    refine ⟨?_, by simpa using hs.2.2⟩
    intro hz
    rw [List.map_eq_nil_iff] at hz
    rw [hz] at h3
    simp at h3

theorem figure_edged {M : Mth K} (hM : M.Lawful) (inf : K) {t : Transform K} (ht : Rigid t) {s : Figure K} (hs : s.Good) (h : BitVec 64) (n : V2 K)
    (hb : ∀ r c, s ≠ .ball r c) (hn : NotEndOn n (cachedShape inf t (s.made M) h).cls) : Edged n (cachedShape inf t (s.made M) h).cls := by
  cases s with
  | ball r c => exact absurd rfl (hb r c)
  | rod a b r => exact C100_rod hM t ht a b hs.2 r n hn
  | poly verts r =>
    obtain ⟨o1, -, o3⟩ := C46_outline hM inf r t ht verts hs.2.1
    exact ⟨o1, o3⟩

theorem figure_endOn {M : Mth K} (hM : M.Lawful) (inf : K) {t : Transform K} (ht : Rigid t) {s : Figure K} (hs : s.Good) (h : BitVec 64) (n : V2 K)
    (hn : ¬ NotEndOn n (cachedShape inf t (s.made M) h).cls) : EndOn n (cachedShape inf t (s.made M) h).cls := by
  cases s with
  | ball r c => exact absurd trivial hn
  | rod a b r =>
    obtain ⟨h1, h2, h3, -, -, h6, h7⟩ := C95_segment hM t ht a b hs.2 r
    have hn : ((t.apply b).sub (t.apply a)).cross n = 0 := not_not.1 hn
    refine ⟨by rw [h1, h2]; exact h6, by rw [h1, h2]; exact h7, ?_, rfl, rfl⟩
    have hl : ((t.apply b).sub (t.apply a)).lengthSq ≠ 0 := by
      intro h0
      have : (t.apply b).sub (t.apply a) = V2.zero := by
        simp only [V2.lengthSq, V2.dot] at h0
        ext <;> simp only [V2.zero] <;> nlinarith [mul_self_nonneg ((t.apply b).sub (t.apply a)).x, mul_self_nonneg ((t.apply b).sub (t.apply a)).y]
      rw [this] at h7
      simp [V2.cross, V2.zero] at h7
    show ((Segment.new M a b r).cache t).1.tn.dot n = 0
    generalize ((Segment.new M a b r).cache t).1.tn = m at *
    generalize (t.apply b).sub (t.apply a) = d at *
    have key : d.cross n * (d.cross m) = d.lengthSq * (m.dot n) - (m.dot d) * (d.dot n) := by
      simp only [V2.cross, V2.lengthSq, V2.dot]; ring
    rw [hn, h6, zero_mul, zero_mul, sub_zero] at key
    exact (mul_eq_zero.1 key.symm).resolve_left hl
  | poly verts r => exact absurd trivial hn

/-- `Collide` after the shapes have been put in order. -/
theorem sorted_figures {M : Mth K} (hM : M.Lawful) (inf tiny B : K) (hti : 0 < tiny) (hinf : 8 * (B * B) < inf) (hB : 2 * B < inf) {t u : Transform K} (ht : Rigid t)
    (hu : Rigid u) {s s' : Figure K} (hs : s.Good) (hs' : s'.Good) (h1 h2 : BitVec 64)
    (hw1 : Within B (cachedShape inf t (s.made M) h1).cls) (hw2 : Within B (cachedShape inf u (s'.made M) h2).cls)
    (hord : (cachedShape inf t (s.made M) h1).cls.order ≤ (cachedShape inf u (s'.made M) h2).cls.order) (info : Info K) (hi : info.contacts = [])
    (hset : ¬ Figure.Easy s s' → SearchSettled M inf tiny (cachedShape inf t (s.made M) h1) (cachedShape inf u (s'.made M) h2) info.id) :
    ∃ info', collideSorted M inf tiny (cachedShape inf t (s.made M) h1) (cachedShape inf u (s'.made M) h2) info = some info' ∧
      (info'.contacts ≠ [] ↔ s.Touch t u s') := by
  -- the easy pairs
  have easy : ∀ r c (x : Thing K), s = .ball r c → x.Good → x.made M = s'.made M → (∀ q, x.Mid q ↔ s'.Mid q) → x.rad = s'.rad → Figure.Easy s s' →
      ∃ info', collideSorted M inf tiny (cachedShape inf t (s.made M) h1) (cachedShape inf u (s'.made M) h2) info = some info' ∧
      (info'.contacts ≠ [] ↔ s.Touch t u s') := by
    rintro r c x rfl hx e1 e2 e3 he
    obtain ⟨info', e, h⟩ := sorted_ball hM inf tiny (t := t) hu (s := .ball r c) (s' := x) hs hx trivial h1 h2 info hi
    rw [e1] at e
    refine ⟨info', e, h.trans ?_⟩
    constructor
    · rintro ⟨p, q, hp, hq, hd⟩
      rw [e3] at hd
      exact ⟨p, q, hp, (e2 q).1 hq, hd.le, fun _ => hd⟩
    · rintro ⟨p, q, hp, hq, -, hd⟩
      refine ⟨p, q, hp, (e2 q).2 hq, ?_⟩
      rw [e3]; exact hd he
  by_cases he : Figure.Easy s s'
  · cases s with
    | ball r c =>
      cases s' with
      | ball r' c' => exact easy r c (.ball r' c') rfl hs' rfl (fun q => Iff.rfl) rfl he
      | rod a b r' => exact easy r c (.rod a b r') rfl hs' rfl (fun q => Iff.rfl) rfl he
      | poly v r' => exact absurd he (fun h => h)
    | rod a b r =>
      cases s' with
      | ball r' c' => exact absurd hord (by simp [cachedShape, Figure.made, Cls.cache, Cls.order])
      | rod a' b' r' => exact absurd he (fun h => h)
      | poly v r' => exact absurd he (fun h => h)
    | poly v r => cases s' <;> exact absurd he (fun h => h)
  · obtain ⟨c, st, hg, hst, hclear⟩ := hset he
    obtain ⟨k1, l1⟩ := figure_corners M inf t hs h1
    obtain ⟨k2, l2⟩ := figure_corners M inf u hs' h2
    obtain ⟨hx, hin⟩ := settled_exact hM inf B _ _ info.id k1 k2 hw1 hw2 hinf l1 l2 c st hg hst
    have hR : 0 ≤ s.rad + s'.rad := add_nonneg (figure_rad hs) (figure_rad hs')
    have hnear : c.d ≤ s.rad + s'.rad ↔ s.Touch t u s' := by
      rw [exact_near hx hin hR]
      constructor
      · rintro ⟨x, y, h1, h2, h⟩
        obtain ⟨p, hp, rfl⟩ := cache_core inf t _ x h1
        obtain ⟨q, hq, rfl⟩ := cache_core inf u _ y h2
        exact ⟨p, q, (figure_localCore M s p).1 hp, (figure_localCore M s' q).1 hq, h, fun h => absurd h he⟩
      · rintro ⟨p, q, hp, hq, h, -⟩
        exact ⟨_, _, core_cache inf t _ p ((figure_localCore M s p).2 hp), core_cache inf u _ q ((figure_localCore M s' q).2 hq), h⟩
    have r1 : radiusOf (cachedShape inf t (s.made M) h1).cls = s.rad := (radius_cache inf t _).trans (figure_radius M s)
    have r2 : radiusOf (cachedShape inf u (s'.made M) h2).cls = s'.rad := (radius_cache inf u _).trans (figure_radius M s')
    have hc : c = (gjk M inf ⟨(cachedShape inf t (s.made M) h1).cls, (cachedShape inf u (s'.made M) h2).cls, (cachedShape inf t (s.made M) h1).bb,
        (cachedShape inf u (s'.made M) h2).bb⟩ info.id).1 := by rw [hg]
    by_cases hball : ∃ r c, s = .ball r c
    · obtain ⟨r, ctr, rfl⟩ := hball
      cases s' with
      | ball r' c' => exact absurd trivial he
      | rod a b r' => exact absurd trivial he
      | poly v r' =>
        refine ⟨_, rfl, ?_⟩
        rw [← hnear]
        unfold circleToPoly
        dsimp only
        rw [← hc]
        show (if c.d ≤ r + r' then _ else _ : Info K).contacts ≠ [] ↔ c.d ≤ r + r'
        split
        · rename_i h; simp [h]
        · rename_i h; simp [h, hi]
    · have nb : ∀ r c, s ≠ .ball r c := fun r c e => hball ⟨r, c, e⟩
      have nb' : ∀ r c, s' ≠ .ball r c := by
        rintro r c rfl
        cases s with
        | ball r' c' => exact nb _ _ rfl
        | rod a b r' => exact absurd hord (by simp [cachedShape, Figure.made, Cls.cache, Cls.order])
        | poly v r' => exact absurd hord (by simp [cachedShape, Figure.made, Cls.cache, Cls.order])
      have pres : Presents tiny c (cachedShape inf t (s.made M) h1).cls (cachedShape inf u (s'.made M) h2).cls := by
        have d1 := figure_edged hM inf ht hs h1 c.n nb
        have d2 := figure_edged hM inf hu hs' h2 c.n nb'
        have f1 := figure_endOn hM inf ht hs h1 c.n
        have f2 := figure_endOn hM inf hu hs' h2 c.n
        by_cases n1 : NotEndOn c.n (cachedShape inf t (s.made M) h1).cls <;> by_cases n2 : NotEndOn c.n (cachedShape inf u (s'.made M) h2).cls
        · exact Or.inl ⟨Or.inl (d1 n1), Or.inl (d2 n2)⟩
        · rcases hclear with ⟨-, k⟩ | ⟨k, -⟩ | ⟨k, k'⟩
          · exact Or.inl ⟨Or.inl (d1 n1), Or.inr ⟨f2 n2, k.resolve_left n2⟩⟩
          · exact absurd k n2
          · exact Or.inr (Or.inr ⟨d1 n1, f2 n2, k'⟩)
        · rcases hclear with ⟨k, -⟩ | ⟨k, k'⟩ | ⟨k, -⟩
          · exact Or.inl ⟨Or.inr ⟨f1 n1, k.resolve_left n1⟩, Or.inl (d2 n2)⟩
          · exact Or.inr (Or.inl ⟨f1 n1, d2 n2, k'⟩)
          · exact absurd k n1
        · rcases hclear with ⟨k, k'⟩ | ⟨k, -⟩ | ⟨k, -⟩
          · exact Or.inl ⟨Or.inr ⟨f1 n1, k.resolve_left n1⟩, Or.inr ⟨f2 n2, k'.resolve_left n2⟩⟩
          · exact absurd k n2
          · exact absurd k n1
      obtain ⟨I, e, y1, y2⟩ := C100_end_on M inf tiny B hti _ _ hord info hi hw1 hw2 hB c hc hx pres
      refine ⟨I, e, ?_⟩
      rw [← hnear]
      rw [r1, r2] at y1 y2
      constructor
      · intro h
        by_contra hn
        exact h (y2 (not_le.1 hn))
      · intro h hz
        obtain ⟨-, -, k, hk, -⟩ := y1 h
        rw [hz] at hk
        simp at hk

/-- **C102.** `Collide` on two figures in either order finds contacts exactly when they touch, provided that the search for the closest
points, where it is used, stops by itself with a usable answer and a rod seen end-on has its second end in front or stands clear of one end of
the edge below it; and it does not panic. -/
theorem C102_pair_partial {M : Mth K} (hM : M.Lawful) (inf tiny B : K) (hti : 0 < tiny) (hinf : 8 * (B * B) < inf) (hB : 2 * B < inf) {t u : Transform K} (ht : Rigid t)
    (hu : Rigid u) {s s' : Figure K} (hs : s.Good) (hs' : s'.Good) (h1 h2 : BitVec 64)
    (hw1 : Within B (cachedShape inf t (s.made M) h1).cls) (hw2 : Within B (cachedShape inf u (s'.made M) h2).cls) (id : Nat)
    (hset : ¬ Figure.Easy s s' →
      if (cachedShape inf t (s.made M) h1).cls.order > (cachedShape inf u (s'.made M) h2).cls.order then
        SearchSettled M inf tiny (cachedShape inf u (s'.made M) h2) (cachedShape inf t (s.made M) h1) id
      else SearchSettled M inf tiny (cachedShape inf t (s.made M) h1) (cachedShape inf u (s'.made M) h2) id) :
    ∃ info, collide M inf tiny (cachedShape inf t (s.made M) h1) (cachedShape inf u (s'.made M) h2) id = some info ∧
      (info.contacts ≠ [] ↔ s.Touch t u s') := by
  unfold collide
  by_cases ho : (cachedShape inf t (s.made M) h1).cls.order > (cachedShape inf u (s'.made M) h2).cls.order
  · rw [if_pos ho]
    simp only [if_pos ho] at hset
    obtain ⟨info, e, h⟩ := sorted_figures hM inf tiny B hti hinf hB hu ht hs' hs h2 h1 hw2 hw1 ho.le ⟨true, id, V2.zero, []⟩ rfl (fun he => hset (fun h => he h.symm))
    exact ⟨info, e, h.trans ⟨fun h => h.symm, fun h => h.symm⟩⟩
  · rw [if_neg ho]
    simp only [if_neg ho] at hset
    exact sorted_figures hM inf tiny B hti hinf hB ht hu hs hs' h1 h2 hw1 hw2 (not_lt.1 ho) ⟨false, id, V2.zero, []⟩ rfl hset

/-! ## The whole world -/

theorem touch_boxes (M : Mth K) (inf : K) {t u : Transform K} {s s' : Figure K} (hs : s.Good) (hs' : s'.Good)
    (h : s.Touch t u s') : Overlap ((s.made M).cache inf t).2 ((s'.made M).cache inf u).2 := by
  obtain ⟨p, q, hp, hq, h, -⟩ := h
  have h1 := figure_rad hs
  have h2 := figure_rad hs'
  set P := t.apply p with hP
  set Q := u.apply q with hQ
  have core1 := core_cache inf t _ p ((figure_localCore M s p).2 hp)
  have core2 := core_cache inf u _ q ((figure_localCore M s' q).2 hq)
  -- a point near both
  obtain ⟨z, z1, z2⟩ : ∃ z, dist2 z P ≤ s.rad * s.rad ∧ dist2 z Q ≤ s'.rad * s'.rad := by
    rcases (add_nonneg h1 h2).lt_or_eq with hpos | hz
    · have hks : s.rad / (s.rad + s'.rad) * (s.rad + s'.rad) = s.rad := div_mul_cancel₀ _ hpos.ne'
      have hk0 : 0 ≤ s.rad / (s.rad + s'.rad) := div_nonneg h1 hpos.le
      generalize s.rad / (s.rad + s'.rad) = k at hks hk0
      have hks' : (1 - k) * (s.rad + s'.rad) = s'.rad := by linear_combination -hks
      refine ⟨At P Q k, ?_, ?_⟩
      · have e : dist2 (At P Q k) P = k * k * dist2 P Q := by simp only [dist2, At]; ring
        have e2 : s.rad * s.rad = k * k * ((s.rad + s'.rad) * (s.rad + s'.rad)) := by
          calc s.rad * s.rad = (k * (s.rad + s'.rad)) * (k * (s.rad + s'.rad)) := by rw [hks]
            _ = _ := by ring
        rw [e, e2]
        exact mul_le_mul_of_nonneg_left h (mul_self_nonneg _)
      · have e : dist2 (At P Q k) Q = (1 - k) * (1 - k) * dist2 P Q := by simp only [dist2, At]; ring
        have e2 : s'.rad * s'.rad = (1 - k) * (1 - k) * ((s.rad + s'.rad) * (s.rad + s'.rad)) := by
          calc s'.rad * s'.rad = ((1 - k) * (s.rad + s'.rad)) * ((1 - k) * (s.rad + s'.rad)) := by rw [hks']
            _ = _ := by ring
        rw [e, e2]
        exact mul_le_mul_of_nonneg_left h (mul_self_nonneg _)
    · refine ⟨P, ?_, ?_⟩
      · have e : dist2 P P = 0 := by simp only [dist2]; ring
        rw [e]; exact mul_self_nonneg _
      · rw [← hz] at h
        have := mul_self_nonneg s'.rad
        linarith
  refine ⟨z, C43_box_contains_cached inf t _ (by rw [figure_radius]; exact h1) _ ⟨P, core1, ?_⟩,
    C43_box_contains_cached inf u _ (by rw [figure_radius]; exact h2) _ ⟨Q, core2, ?_⟩⟩
  · rw [radius_cache, figure_radius]; exact z1
  · rw [radius_cache, figure_radius]; exact z2

theorem figure_box_proper (M : Mth K) (inf : K) (t : Transform K) {s : Figure K} (hs : s.Good) :
    ((s.made M).cache inf t).2.L ≤ ((s.made M).cache inf t).2.R ∧ ((s.made M).cache inf t).2.B ≤ ((s.made M).cache inf t).2.T := by
  obtain ⟨p, hp⟩ : ∃ p, s.Mid p := by
    cases s with
    | ball r c => exact ⟨c, rfl⟩
    | rod a b r => exact ⟨At a b 0, 0, le_refl _, zero_le_one, rfl⟩
    | poly verts r =>
      have h3 := hs.2.1.1
      cases verts with
      | nil => simp at h3
      | cons v l => exact ⟨v, .vert _ (by simp)⟩
  have h1 := figure_rad hs
  obtain ⟨a, b, c, d⟩ := C43_box_contains_cached inf t (s.made M) (by rw [figure_radius]; exact h1) (t.apply p)
    ⟨t.apply p, core_cache inf t _ p ((figure_localCore M s p).2 hp), by
      have e : dist2 (t.apply p) (t.apply p) = 0 := by simp only [dist2]; ring
      rw [e]; exact mul_self_nonneg _⟩
  constructor <;> linarith

/-- The pair is handed to the narrow phase with the shapes in this order or the other; both searches settle. -/
def Spec.PairSearched (M : Mth K) (inf tiny : K) (a b : CShape K) (id : Nat) : Prop :=
  if a.cls.order > b.cls.order then SearchSettled M inf tiny b a id else SearchSettled M inf tiny a b id

/-- **C102.** After any history of the broad phase and of the joints, in a world of balls, rods and convex polygons on bodies placed anyhow, a
step makes contacts for exactly the pairs of different shapes, not both static, that touch, are on different bodies, have filters that accept
each other and no joint between their bodies that bars them; for each of them once. The searches for closest points are assumed to settle. -/
theorem C102_contacts_partial {M : Mth K} (hM : M.Lawful) (inf tiny B : K) (hti : 0 < tiny) (hinf : 8 * (B * B) < inf) (hB : 2 * B < inf)
    (ops : List (Op K)) (m : Index K) (hops : LegalRun emptyIndex ops) (hm : indexRun emptyIndex ops = some m) (order : List Nat)
    (hnd : order.Nodup) (hord : ∀ i, i ∈ order ↔ ∃ b, m i = some (true, b))
    (body : Nat → Nat) (place : Nat → Transform K) (hrig : ∀ b, Rigid (place b)) (fig : Nat → Figure K) (hgood : ∀ i, (fig i).Good)
    (hash : Nat → BitVec 64) (sh : Nat → CShape K) (hsh : ∀ i, sh i = cachedShape inf (place (body i)) ((fig i).made M) (hash i))
    (hwithin : ∀ i, Within B (sh i).cls)
    (hstat : ∀ j b, m j = some (false, b) → (sh j).bb = b) (vel : Nat → V2 K) (ids : Nat → Nat → Nat) (flt : Nat → ShapeFilter)
    (eA eB : Nat → Nat) (jops : List (LinkOp Nat Nat)) (hh : LinkHistory [] jops) (hr : RemovesPresent [] jops)
    (fuel : Nat) (hf : jops.length ≤ fuel) (collide : Nat → Bool)
    (hset : ∀ i j, (m i).isSome → (m j).isSome → body i ≠ body j → Overlap (sh i).bb (sh j).bb → ¬ Figure.Easy (fig i) (fig j) →
      PairSearched M inf tiny (sh i) (sh j) (ids i j)) :
    ∃ s h, run init ops = some s ∧ jointRun fuel (emptyHeap eA eB) jops = some h ∧
      ∀ barred : Nat → Nat → Bool, (∀ a b, ∃ visited, h.walk a fuel (h.head a) = some visited ∧ barred a b = h.rejects collide a b visited) →
      let found := foundPairs M inf tiny sh ids (narrowPairs body flt (fun i => (sh i).bb) barred (reindexQuery s order (fun i => (sh i).bb) vel).2)
      (∀ i j, found.count (i, j) + found.count (j, i) ≤ 1) ∧
      (∀ i j, (i, j) ∈ found ∨ (j, i) ∈ found ↔
        i ≠ j ∧ (m i).isSome ∧ (m j).isSome ∧ ((∃ b, m i = some (true, b)) ∨ ∃ b, m j = some (true, b)) ∧
          body i ≠ body j ∧ Accepts (flt i) (flt j) ∧
          (∀ n, collide n = false → (n, body i, body j) ∉ links jops ∧ (n, body j, body i) ∉ links jops) ∧
          (fig i).Touch (place (body i)) (place (body j)) (fig j)) := by
  have hbbe : ∀ i, (sh i).bb = (((fig i).made M).cache inf (place (body i))).2 := fun i => by rw [hsh]; rfl
  have hq : Legal m (.reindexQuery order (fun i => (sh i).bb) vel) :=
    ⟨fun i => by simp only [hbbe]; exact figure_box_proper M inf _ (hgood i), hnd, hord⟩
  obtain ⟨s, h, hs, hj, hmain⟩ := C89_narrow ops m hops hm order (fun i => (sh i).bb) vel hq hstat body flt eA eB jops hh hr fuel hf collide
  refine ⟨s, h, hs, hj, fun barred hb => ?_⟩
  obtain ⟨hcount, hmem⟩ := hmain barred hb
  generalize narrowPairs body flt (fun i => (sh i).bb) barred (reindexQuery s order (fun i => (sh i).bb) vel).2 = tested at hcount hmem
  intro found
  have hle : ∀ p, found.count p ≤ tested.count p := fun p => List.Sublist.count_le p List.filter_sublist
  refine ⟨fun i j => le_trans (Nat.add_le_add (hle _) (hle _)) (hcount i j), fun i j => ?_⟩
  have hov : ∀ i j, (i, j) ∈ tested ∨ (j, i) ∈ tested →
      (touches M inf tiny (sh i) (sh j) (ids i j) = true ↔ (fig i).Touch (place (body i)) (place (body j)) (fig j)) := by
    intro i j ht
    obtain ⟨h1, h2, h3, h4, h5, h6, h7, h8⟩ := (hmem i j).1 ht
    have hs := hset i j h2 h3 h5 h7
    have w1 := hwithin i
    have w2 := hwithin j
    rw [hsh i] at hs w1 ⊢
    rw [hsh j] at hs w2 ⊢
    obtain ⟨info, e, h⟩ := C102_pair_partial hM inf tiny B hti hinf hB (hrig _) (hrig _) (hgood i) (hgood j) _ _ w1 w2 (ids i j) hs
    unfold touches
    rw [e, ← h]
    simp
  constructor
  · intro hf
    have ht : (i, j) ∈ tested ∨ (j, i) ∈ tested := hf.imp (fun h => (List.mem_filter.1 h).1) (fun h => (List.mem_filter.1 h).1)
    obtain ⟨h1, h2, h3, h4, h5, h6, h7, h8⟩ := (hmem i j).1 ht
    refine ⟨h1, h2, h3, h4, h5, h6, h8, ?_⟩
    rcases hf with hf | hf
    · exact (hov i j ht).1 (List.mem_filter.1 hf).2
    · exact ((hov j i ht.symm).1 (List.mem_filter.1 hf).2).symm
  · rintro ⟨h1, h2, h3, h4, h5, h6, h8, ho⟩
    have hbox : Overlap (sh i).bb (sh j).bb := by
      rw [hbbe, hbbe]; exact touch_boxes M inf (hgood i) (hgood j) ho
    have ht := (hmem i j).2 ⟨h1, h2, h3, h4, h5, h6, hbox, h8⟩
    rcases ht with ht | ht
    · exact .inl (List.mem_filter.2 ⟨ht, (hov i j (.inl ht)).2 ho⟩)
    · exact .inr (List.mem_filter.2 ⟨ht, (hov j i (.inl ht)).2 ho.symm⟩)

/-! ## End-on rods, and examples -/

/-- **C102 (violated).** A rod of radius 1/2 stands a quarter above the end of the upper side of a box, seen end-on: they overlap, the search finds
the normal, and yet there is no contact, because both tries look at the far end of the rod. -/
theorem C102_end_on :
    (Figure.rod ⟨-2, 5/4⟩ ⟨-2, 3⟩ (1/2) : Figure ℚ).Touch ⟨1, 0, 0, 1, 0, 0⟩ ⟨1, 0, 0, 1, 0, 0⟩ (.poly [⟨2, -1⟩, ⟨2, 1⟩, ⟨-2, 1⟩, ⟨-2, -1⟩] 0) ∧
    (collide gridMth 100000 (1/1000) (cachedShape 100000 ⟨1, 0, 0, 1, 0, 0⟩ ((Figure.rod ⟨-2, 5/4⟩ ⟨-2, 3⟩ (1/2) : Figure ℚ).made gridMth) 2)
      (cachedShape 100000 ⟨1, 0, 0, 1, 0, 0⟩ ((Figure.poly [⟨2, -1⟩, ⟨2, 1⟩, ⟨-2, 1⟩, ⟨-2, -1⟩] 0 : Figure ℚ).made gridMth) 1) 0).map
        (fun info => (info.n, info.contacts)) = some (⟨0, -1⟩, []) := by
  refine ⟨⟨⟨-2, 5/4⟩, ⟨-2, 1⟩, ⟨0, le_refl _, by norm_num, by norm_num [At]⟩, .vert _ (by simp), ?_, fun h => absurd h (fun h => h)⟩, ?_⟩
  · norm_num [dist2, Transform.apply, Figure.rad]
  · decide +kernel

/-- Two rods with real square roots, one slanting up from above the other. -/
noncomputable def exFlat : CShape ℝ := cachedShape 1000 ⟨1, 0, 0, 1, 0, 0⟩ ((Figure.rod ⟨-1, 0⟩ ⟨1, 0⟩ 1).made realMth) 2
noncomputable def exSlant : CShape ℝ := cachedShape 1000 ⟨1, 0, 0, 1, 0, 0⟩ ((Figure.rod ⟨0, 1⟩ ⟨2, 3⟩ 1).made realMth) 1

/-- The search for their closest points settles, and they touch: the hypotheses of `C102_pair_partial`. -/
example : (Figure.rod ⟨-1, 0⟩ ⟨1, 0⟩ 1 : Figure ℝ).Good ∧ (Figure.rod ⟨0, 1⟩ ⟨2, 3⟩ 1 : Figure ℝ).Good ∧ Within 3 exFlat.cls ∧ Within 3 exSlant.cls ∧
    SearchSettled realMth 1000 (1/1000) exFlat exSlant 0 := by
  refine ⟨⟨by norm_num, by norm_num [V2.mk.injEq]⟩, ⟨by norm_num, by simp⟩, ?_, ?_, MPoint.closestPoints realMth ⟨⟨-1, 0⟩, ⟨0, 1⟩, ⟨1, 1⟩, 0⟩ ⟨⟨1, 0⟩, ⟨0, 1⟩, ⟨-1, 1⟩, 256⟩, .gjkDone, ?_, ?_⟩
  · intro v hv
    simp only [exFlat, cachedShape, Figure.made, Cls.cache, Segment.cache, Segment.new, Transform.apply, corners, List.mem_cons, List.not_mem_nil, or_false] at hv
    rcases hv with rfl | rfl <;> norm_num
  · intro v hv
    simp only [exSlant, cachedShape, Figure.made, Cls.cache, Segment.cache, Segment.new, Transform.apply, corners, List.mem_cons, List.not_mem_nil, or_false] at hv
    rcases hv with rfl | rfl <;> norm_num
  · simp only [exFlat, exSlant, cachedShape, Figure.made, Cls.cache, Segment.cache, Segment.new, Transform.apply, gjk, gjkStart, ne_eq, not_true_eq_false, if_false,
      BB.center, V2.lerp, V2.add, V2.scale, V2.sub, V2.perp, V2.neg, Ctx.support, Cls.support, MPoint.new, V2.dot]
    norm_num
    iterate 2
      rw [gjkRecurse]
      simp only [pointGreater, closestT, lerpT, clamp, checkAxis, V2.zero, V2.lengthSq, V2.dot, V2.sub, V2.add, V2.perp, V2.neg, closestDist,
        Ctx.support, Cls.support, MPoint.new, V2.scale]
      norm_num
  · have hs : realMth.sqrt (2 * 2) = 2 := Real.sqrt_mul_self (by norm_num)
    have e : MPoint.closestPoints realMth ⟨⟨-1, 0⟩, ⟨0, 1⟩, ⟨1, 1⟩, 0⟩ ⟨⟨1, 0⟩, ⟨0, 1⟩, ⟨-1, 1⟩, 256⟩ = ⟨⟨0, 0⟩, ⟨0, 1⟩, ⟨0, 1⟩, 1, 256⟩ := by
      simp only [MPoint.closestPoints, closestT, lerpT, clamp, V2.unit, V2.mag, V2.lengthSq, V2.dot, V2.sub, V2.add, V2.rperp, V2.scale]
      norm_num
      norm_num at hs
      rw [hs]
      norm_num
    rw [e]
    refine ⟨.inl ⟨rfl, by norm_num⟩, Or.inl ⟨Or.inl ?_, Or.inl ?_⟩⟩ <;>
      norm_num [NotEndOn, exFlat, exSlant, cachedShape, Figure.made, Cls.cache, Segment.cache, Segment.new, Transform.apply, V2.cross, V2.sub]

end Cm
