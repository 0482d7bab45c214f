import Verif.Model.Detect
import Verif.Props.Narrow
import Verif.Props.Collide
import Verif.Props.ShapeMade
/-! # C98: balls and rods get contacts exactly when they overlap -/
set_option linter.unusedSectionVars false
set_option linter.unusedSimpArgs false
set_option linter.unusedVariables false

namespace Cm
open Spec BBTree Threads
variable {K : Type} [Field K] [LinearOrder K] [IsStrictOrderedRing K]

namespace Spec
/-- A disc about a point of the body, or a segment between two different points of it, thickened by a radius. -/
inductive Thing (K : Type) where
  | ball (r : K) (c : V2 K)
  | rod (a b : V2 K) (r : K)

/-- The radius is not negative and the ends of a rod are different. -/
def Thing.Good : Thing K → Prop
  | .ball r _ => 0 ≤ r
  | .rod a b r => 0 ≤ r ∧ a ≠ b

def Thing.isBall : Thing K → Prop
  | .ball _ _ => True
  | .rod _ _ _ => False

def Thing.rad : Thing K → K
  | .ball r _ => r
  | .rod _ _ r => r

/-- The middle of the thing in the coordinates of its body. -/
def Thing.Mid : Thing K → V2 K → Prop
  | .ball _ c, x => x = c
  | .rod a b _, x => OnSegment a b x

/-- The class made by the constructor for the thing. -/
def Thing.made (M : Mth K) : Thing K → Cls K
  | .ball r c => .circle (Circle.new r c)
  | .rod a b r => .segment (Segment.new M a b r)

/-- Two things on bodies placed by `t` and `u` overlap: two points of their middles are nearer than the sum of the radii. -/
def Thing.Overlaps (t u : Transform K) (s s' : Thing K) : Prop :=
  ∃ p q, s.Mid p ∧ s'.Mid q ∧ dist2 (t.apply p) (u.apply q) < (s.rad + s'.rad) * (s.rad + s'.rad)
end Spec

theorem Spec.Thing.Overlaps.symm {t u : Transform K} {s s' : Thing K} (h : s.Overlaps t u s') : s'.Overlaps u t s := by
  obtain ⟨p, q, hp, hq, h⟩ := h
  exact ⟨q, p, hq, hp, by rw [dist2_comm, add_comm s'.rad]; exact h⟩

theorem made_localCore (M : Mth K) (s : Thing K) (x : V2 K) : LocalCore (s.made M) x ↔ s.Mid x := by cases s <;> exact Iff.rfl
theorem made_radius (M : Mth K) (s : Thing K) : radiusOf (s.made M) = s.rad := by cases s <;> rfl
theorem good_rad {s : Thing K} (h : s.Good) : 0 ≤ s.rad := by
  cases s with
  | ball r c => exact h
  | rod a b r => exact h.1

/-- Overlapping things have overlapping boxes. -/
theorem overlaps_boxes (M : Mth K) (inf : K) {t u : Transform K} (ht : Rigid t) (hu : Rigid u) {s s' : Thing K} (hs : s.Good) (hs' : s'.Good)
    (h : Spec.Thing.Overlaps t u s s') : Overlap ((s.made M).cache inf t).2 ((s'.made M).cache inf u).2 := by
  obtain ⟨p, q, hp, hq, h⟩ := h
  have h1 := good_rad hs
  have h2 := good_rad hs'
  have hpos : 0 < s.rad + s'.rad := by
    rcases lt_or_eq_of_le (add_nonneg h1 h2) with h' | h'
    · exact h'
    · rw [← h'] at h
      exfalso
      simp only [dist2] at h
      nlinarith [sq_nonneg ((t.apply p).x - (u.apply q).x), sq_nonneg ((t.apply p).y - (u.apply q).y)]
  set P := t.apply p with hP
  set Q := u.apply q with hQ
  set k := s.rad / (s.rad + s'.rad) with hk
  have hk0 : 0 ≤ k := div_nonneg h1 hpos.le
  have hks : k * (s.rad + s'.rad) = s.rad := div_mul_cancel₀ _ hpos.ne'
  have hks' : (1 - k) * (s.rad + s'.rad) = s'.rad := by linear_combination -hks
  have hk1 : 0 ≤ 1 - k := by
    by_contra hneg
    rw [not_le] at hneg
    nlinarith
  have hx1 : dist2 (At P Q k) P ≤ s.rad * s.rad := by
    have e : dist2 (At P Q k) P = k * k * dist2 P Q := by simp only [dist2, At]; ring
    have e2 : s.rad * s.rad = k * k * ((s.rad + s'.rad) * (s.rad + s'.rad)) := by
      calc s.rad * s.rad = (k * (s.rad + s'.rad)) * (k * (s.rad + s'.rad)) := by rw [hks]
        _ = _ := by ring
    rw [e, e2]
    exact mul_le_mul_of_nonneg_left h.le (mul_nonneg hk0 hk0)
  have hx2 : dist2 (At P Q k) Q ≤ s'.rad * s'.rad := by
    have e : dist2 (At P Q k) Q = (1 - k) * (1 - k) * dist2 P Q := by simp only [dist2, At]; ring
    have e2 : s'.rad * s'.rad = (1 - k) * (1 - k) * ((s.rad + s'.rad) * (s.rad + s'.rad)) := by
      calc s'.rad * s'.rad = ((1 - k) * (s.rad + s'.rad)) * ((1 - k) * (s.rad + s'.rad)) := by rw [hks']
        _ = _ := by ring
    rw [e, e2]
    exact mul_le_mul_of_nonneg_left h.le (mul_nonneg hk1 hk1)
  refine ⟨At P Q k, C43_box_contains_cached inf t _ (by rw [made_radius]; exact h1) _ ⟨P, core_cache inf t _ p ((made_localCore M s p).2 hp), ?_⟩,
    C43_box_contains_cached inf u _ (by rw [made_radius]; exact h2) _ ⟨Q, core_cache inf u _ q ((made_localCore M s' q).2 hq), ?_⟩⟩
  · rw [radius_cache, made_radius]; exact hx1
  · rw [radius_cache, made_radius]; exact hx2

theorem made_box_proper (M : Mth K) (inf : K) (t : Transform K) {s : Thing K} (hs : s.Good) :
    ((s.made M).cache inf t).2.L ≤ ((s.made M).cache inf t).2.R ∧ ((s.made M).cache inf t).2.B ≤ ((s.made M).cache inf t).2.T := by
  cases s with
  | ball r c =>
    have : 0 ≤ r := hs
    simp only [Thing.made, Cls.cache, Circle.cache, Circle.new, BB.forCircle]
    constructor <;> simp only [BB.forExtents] <;> linarith
  | rod a b r =>
    have : 0 ≤ r := hs.1
    simp only [Thing.made, Cls.cache, Segment.cache, Segment.new]
    constructor <;> split <;> linarith

/-- `Collide` on two things of which the first is a ball. -/
theorem sorted_ball {M : Mth K} (hM : M.Lawful) (inf tiny : K) {t u : Transform K} (hu : Rigid u) {s s' : Thing K} (hs : s.Good) (hs' : s'.Good)
    (hb : s.isBall) (h1 h2 : BitVec 64) (info : Info K) (hi : info.contacts = []) :
    ∃ info', collideSorted M inf tiny (cachedShape inf t (s.made M) h1) (cachedShape inf u (s'.made M) h2) info = some info' ∧
      (info'.contacts ≠ [] ↔ s.Overlaps t u s') := by
  cases s with
  | rod a b r => exact absurd hb id
  | ball r c =>
    cases s' with
    | ball r' c' =>
      refine ⟨_, rfl, ?_⟩
      have hr : (0 : K) ≤ r + r' := add_nonneg hs hs'
      have := (C44_circles hM (Circle.cache t (Circle.new r c)).1 (Circle.cache u (Circle.new r' c')).1 info hi hr).1
      refine (this.trans (dist_lt_iff hM _ _ _ hr)).trans ?_
      constructor
      · intro h; exact ⟨c, c', rfl, rfl, h⟩
      · rintro ⟨p, q, rfl, rfl, h⟩; exact h
    | rod a b r' =>
      refine ⟨_, rfl, ?_⟩
      have hr : (0 : K) ≤ r + r' := add_nonneg hs hs'.1
      obtain ⟨e1, e2, e3, e4, e5, -⟩ := C95_segment hM u hu a b hs'.2 r'
      have := C44_no_tangents hM (Circle.cache t (Circle.new r c)).1 (Segment.cache u (Segment.new M a b r')).1 ⟨u.a, u.b⟩ info hi hr
        (by rw [e1, e2]; exact e3) e5 rfl rfl
      refine Iff.trans this ?_
      constructor
      · rintro ⟨x, ⟨k, k0, k1, rfl⟩, h⟩
        refine ⟨c, At a b k, rfl, ⟨k, k0, k1, rfl⟩, ?_⟩
        have h := (dist_lt_iff hM _ _ _ hr).1 h
        rw [apply_at]; exact h
      · rintro ⟨p, q, rfl, ⟨k, k0, k1, rfl⟩, h⟩
        refine ⟨At (u.apply a) (u.apply b) k, ⟨k, k0, k1, rfl⟩, ?_⟩
        refine (dist_lt_iff hM _ _ _ hr).2 ?_
        rw [apply_at] at h; exact h

/-- **C98** `Collide` on two things of which at least one is a ball, in either order, finds contacts exactly when they overlap, and does not panic. -/
theorem C98_no_panic {M : Mth K} (hM : M.Lawful) (inf tiny : K) {t u : Transform K} (ht : Rigid t) (hu : Rigid u) {s s' : Thing K} (hs : s.Good)
    (hs' : s'.Good) (hb : s.isBall ∨ s'.isBall) (h1 h2 : BitVec 64) (id : Nat) :
    ∃ info, collide M inf tiny (cachedShape inf t (s.made M) h1) (cachedShape inf u (s'.made M) h2) id = some info ∧
      (info.contacts ≠ [] ↔ s.Overlaps t u s') := by
  unfold collide
  by_cases ho : (cachedShape inf t (s.made M) h1).cls.order > (cachedShape inf u (s'.made M) h2).cls.order
  · rw [if_pos ho]
    have hb' : s'.isBall := by
      cases s with
      | ball r c => cases s' <;> exact absurd ho (by simp [cachedShape, Thing.made, Cls.cache, Cls.order])
      | rod a b r => exact hb.resolve_left (fun h => h)
    obtain ⟨info, e, h⟩ := sorted_ball hM inf tiny ht hs' hs hb' h2 h1 ⟨true, id, V2.zero, []⟩ rfl
    exact ⟨info, e, h.trans ⟨fun h => h.symm, fun h => h.symm⟩⟩
  · rw [if_neg ho]
    have hb' : s.isBall := by
      cases s with
      | ball r c => trivial
      | rod a b r =>
        cases s' with
        | ball r' c' => exact absurd (by simp [cachedShape, Thing.made, Cls.cache, Cls.order]) ho
        | rod a' b' r' => exact hb.resolve_right (fun h => h)
    exact sorted_ball hM inf tiny hu hs hs' hb' h1 h2 ⟨false, id, V2.zero, []⟩ rfl

theorem touches_iff {M : Mth K} (hM : M.Lawful) (inf tiny : K) {t u : Transform K} (ht : Rigid t) (hu : Rigid u) {s s' : Thing K} (hs : s.Good)
    (hs' : s'.Good) (hb : s.isBall ∨ s'.isBall) (h1 h2 : BitVec 64) (id : Nat) :
    touches M inf tiny (cachedShape inf t (s.made M) h1) (cachedShape inf u (s'.made M) h2) id = true ↔ s.Overlaps t u s' := by
  obtain ⟨info, e, h⟩ := C98_no_panic hM inf tiny ht hu hs hs' hb h1 h2 id
  unfold touches
  rw [e, ← h]
  simp

/-- **C98** After any history of the broad phase and of the joints, in a world of balls and rods on bodies placed anyhow, where of any two shapes that
may meet one is a ball, a step makes contacts for exactly the pairs of different shapes, not both static, that overlap, are on different
bodies, have filters that accept each other and no joint between their bodies that bars them; for each of them once. -/
theorem C98_contacts {M : Mth K} (hM : M.Lawful) (inf tiny : K)
    (ops : List (Op K)) (m : Index K) (hops : LegalRun emptyIndex ops) (hm : indexRun emptyIndex ops = some m) (order : List Nat)
    (hnd : order.Nodup) (hord : ∀ i, i ∈ order ↔ ∃ b, m i = some (true, b))
    (body : Nat → Nat) (place : Nat → Transform K) (hrig : ∀ b, Rigid (place b)) (thing : Nat → Thing K) (hgood : ∀ i, (thing i).Good)
    (hballs : ∀ i j, (∃ b, m i = some (true, b)) → (m j).isSome → body i ≠ body j → (thing i).isBall ∨ (thing j).isBall)
    (hash : Nat → BitVec 64) (sh : Nat → CShape K) (hsh : ∀ i, sh i = cachedShape inf (place (body i)) ((thing i).made M) (hash i))
    (hstat : ∀ j b, m j = some (false, b) → (sh j).bb = b) (vel : Nat → V2 K) (ids : Nat → Nat → Nat) (flt : Nat → ShapeFilter)
    (eA eB : Nat → Nat) (jops : List (LinkOp Nat Nat)) (hh : LinkHistory [] jops) (hr : RemovesPresent [] jops)
    (fuel : Nat) (hf : jops.length ≤ fuel) (collide : Nat → Bool) :
    ∃ s h, run init ops = some s ∧ jointRun fuel (emptyHeap eA eB) jops = some h ∧
      ∀ barred : Nat → Nat → Bool, (∀ a b, ∃ visited, h.walk a fuel (h.head a) = some visited ∧ barred a b = h.rejects collide a b visited) →
      let found := foundPairs M inf tiny sh ids (narrowPairs body flt (fun i => (sh i).bb) barred (reindexQuery s order (fun i => (sh i).bb) vel).2)
      (∀ i j, found.count (i, j) + found.count (j, i) ≤ 1) ∧
      (∀ i j, (i, j) ∈ found ∨ (j, i) ∈ found ↔
        i ≠ j ∧ (m i).isSome ∧ (m j).isSome ∧ ((∃ b, m i = some (true, b)) ∨ ∃ b, m j = some (true, b)) ∧
          body i ≠ body j ∧ Accepts (flt i) (flt j) ∧
          (∀ n, collide n = false → (n, body i, body j) ∉ links jops ∧ (n, body j, body i) ∉ links jops) ∧
          (thing i).Overlaps (place (body i)) (place (body j)) (thing j)) := by
  have hbbe : ∀ i, (sh i).bb = (((thing i).made M).cache inf (place (body i))).2 := fun i => by rw [hsh]; rfl
  have hq : Legal m (.reindexQuery order (fun i => (sh i).bb) vel) :=
    ⟨fun i => by simp only [hbbe]; exact made_box_proper M inf _ (hgood i), hnd, hord⟩
  obtain ⟨s, h, hs, hj, hmain⟩ := C89_narrow ops m hops hm order (fun i => (sh i).bb) vel hq hstat body flt eA eB jops hh hr fuel hf collide
  refine ⟨s, h, hs, hj, fun barred hb => ?_⟩
  obtain ⟨hcount, hmem⟩ := hmain barred hb
  generalize narrowPairs body flt (fun i => (sh i).bb) barred (reindexQuery s order (fun i => (sh i).bb) vel).2 = tested at hcount hmem
  intro found
  have hle : ∀ p, found.count p ≤ tested.count p := fun p => List.Sublist.count_le p List.filter_sublist
  refine ⟨fun i j => le_trans (Nat.add_le_add (hle _) (hle _)) (hcount i j), fun i j => ?_⟩
  have hov : ∀ i j, ((thing i).isBall ∨ (thing j).isBall) →
      (touches M inf tiny (sh i) (sh j) (ids i j) = true ↔ (thing i).Overlaps (place (body i)) (place (body j)) (thing j)) := by
    intro i j hb
    rw [hsh i, hsh j]
    exact touches_iff hM inf tiny (hrig _) (hrig _) (hgood i) (hgood j) hb _ _ _
  have hball : ∀ i j, (m i).isSome → (m j).isSome → ((∃ b, m i = some (true, b)) ∨ ∃ b, m j = some (true, b)) → body i ≠ body j →
      (thing i).isBall ∨ (thing j).isBall := by
    intro i j hi hj' hd hne
    rcases hd with hd | hd
    · exact hballs i j hd hj' hne
    · exact (hballs j i hd hi hne.symm).symm
  constructor
  · intro hf
    have ht : (i, j) ∈ tested ∨ (j, i) ∈ tested := hf.imp (fun h => (List.mem_filter.1 h).1) (fun h => (List.mem_filter.1 h).1)
    obtain ⟨h1, h2, h3, h4, h5, h6, h7, h8⟩ := (hmem i j).1 ht
    refine ⟨h1, h2, h3, h4, h5, h6, h8, ?_⟩
    have hb' := hball i j h2 h3 h4 h5
    rcases hf with hf | hf
    · exact (hov i j hb').1 (List.mem_filter.1 hf).2
    · exact ((hov j i hb'.symm).1 (List.mem_filter.1 hf).2).symm
  · rintro ⟨h1, h2, h3, h4, h5, h6, h8, ho⟩
    have hb' := hball i j h2 h3 h4 h5
    have hbox : Overlap (sh i).bb (sh j).bb := by
      rw [hbbe, hbbe]; exact overlaps_boxes M inf (hrig _) (hrig _) (hgood i) (hgood j) ho
    have ht := (hmem i j).2 ⟨h1, h2, h3, h4, h5, h6, hbox, h8⟩
    rcases ht with ht | ht
    · exact .inl (List.mem_filter.2 ⟨ht, (hov i j hb').2 ho⟩)
    · exact .inr (List.mem_filter.2 ⟨ht, (hov j i hb'.symm).2 ho.symm⟩)

/-! ## Examples -/

/-- A rod on the ground, a ball sunk into it and a ball above it. -/
noncomputable def exThing : Nat → Thing ℝ
  | 2 => .rod ⟨-5, 0⟩ ⟨5, 0⟩ 1
  | 1 => .ball 1 ⟨3, 10⟩
  | _ => .ball 1 ⟨0, 3/2⟩

noncomputable def exThings : List (Op ℝ) := [.insertDyn 0 ⟨-1, 1/2, 1, 5/2⟩ ⟨0, 0⟩, .insertDyn 1 ⟨2, 9, 4, 11⟩ ⟨0, 0⟩, .insertStat 2 ⟨-6, -1, 6, 1⟩]

noncomputable def exThingIndex : Index ℝ := (((emptyIndex : Index ℝ).set 0 (some (true, ⟨-1, 1/2, 1, 5/2⟩))).set 1 (some (true, ⟨2, 9, 4, 11⟩))).set 2
  (some (false, ⟨-6, -1, 6, 1⟩))

/-- The hypotheses of `C98_contacts` hold for this world, the ball in the rod overlaps it, and the other one does not. -/
example : LegalRun emptyIndex exThings ∧ indexRun emptyIndex exThings = some exThingIndex ∧ [1, 0].Nodup ∧
    (∀ i, i ∈ [1, 0] ↔ ∃ b, exThingIndex i = some (true, b)) ∧ Rigid (Transform.identity : Transform ℝ) ∧ (∀ i, (exThing i).Good) ∧
    (∀ i j, (∃ b, exThingIndex i = some (true, b)) → (exThingIndex j).isSome → i ≠ j → (exThing i).isBall ∨ (exThing j).isBall) ∧
    (∀ j b, exThingIndex j = some (false, b) → (cachedShape 1000 Transform.identity ((exThing j).made realMth) 0).bb = b) ∧
    (exThing 0).Overlaps Transform.identity Transform.identity (exThing 2) ∧
    ¬ (exThing 1).Overlaps Transform.identity Transform.identity (exThing 2) := by
  refine ⟨⟨⟨by norm_num, by norm_num⟩, fun m1 h1 => ⟨⟨by norm_num, by norm_num⟩, fun m2 h2 => ⟨⟨by norm_num, by norm_num⟩, fun m3 h3 => trivial⟩⟩⟩,
    ?_, by simp, ?_, ⟨by norm_num [Transform.identity], by norm_num [Transform.identity], by norm_num [Transform.identity]⟩, ?_, ?_, ?_, ?_, ?_⟩
  · simp [exThings, indexRun, indexStep, emptyIndex, Index.set, exThingIndex]
  · intro i
    by_cases h0 : i = 0
    · subst h0; simp [exThingIndex, Index.set]
    by_cases h1 : i = 1
    · subst h1; simp [exThingIndex, Index.set]
    by_cases h2 : i = 2
    · subst h2; simp [exThingIndex, Index.set]
    simp [exThingIndex, Index.set, h0, h1, h2, emptyIndex]
  · intro i
    unfold exThing
    split <;> simp [Thing.Good]
    norm_num
  · intro i j ⟨b, hb⟩ hj hne
    by_cases h2 : i = 2
    · subst h2; simp [exThingIndex, Index.set] at hb
    · left
      unfold exThing
      split <;> simp_all [Thing.isBall]
  · intro j b h
    by_cases h2 : j = 2
    · subst h2
      simp [exThingIndex, Index.set] at h
      subst h
      norm_num [cachedShape, exThing, Thing.made, Cls.cache, Segment.cache, Segment.new, Transform.identity, Transform.apply]
    · by_cases h1 : j = 1
      · subst h1; simp [exThingIndex, Index.set] at h
      · by_cases h0 : j = 0
        · subst h0; simp [exThingIndex, Index.set] at h
        · simp [exThingIndex, Index.set, h0, h1, h2, emptyIndex] at h
  · refine ⟨⟨0, 3/2⟩, ⟨0, 0⟩, rfl, ⟨1/2, by norm_num, by norm_num, by norm_num [At]⟩, ?_⟩
    norm_num [dist2, Transform.apply, Transform.identity, exThing, Thing.rad]
  · rintro ⟨p, q, hp, ⟨k, h0, h1, rfl⟩, h⟩
    obtain rfl : p = ⟨3, 10⟩ := hp
    norm_num [dist2, Transform.apply, Transform.identity, exThing, Thing.rad, At] at h
    nlinarith [sq_nonneg (3 - (-5 + k * 10))]

end Cm
