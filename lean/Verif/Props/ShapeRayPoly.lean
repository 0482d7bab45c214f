import Verif.Props.ShapeRaySeg
/-! # C80: ray casts against polygons -/
set_option linter.unusedSectionVars false
set_option linter.unusedSimpArgs false
set_option linter.unusedVariables false

namespace Cm
open Spec
variable {K : Type} [Field K] [LinearOrder K] [IsStrictOrderedRing K]

/-- At fraction `t` of the way from `a` to `b` the moving circle is within `r` (the sum of both radii) of the polygon. -/
def Spec.TouchesHull (l : List (Plane K)) (r : K) (a b : V2 K) (t : K) : Prop :=
  ∃ x, Hull (l.map Plane.v0) x ∧ dist2 (At a b t) x ≤ r * r

/-- Height above a side. -/
def Spec.hgt (s : V2 K × Plane K) (x : V2 K) : K := s.2.n.dot (x.sub s.2.v0)
/-- Position along a side. -/
def Spec.lat (s : V2 K × Plane K) (x : V2 K) : K := s.2.n.cross (x.sub s.1)

/-- The moving point comes down onto the offset side `s` at fraction `t`. -/
def Spec.EdgeHit (r : K) (a b : V2 K) (s : V2 K × Plane K) (t : K) : Prop :=
  0 ≤ t ∧ t ≤ 1 ∧ r ≤ hgt s a ∧ hgt s b ≠ hgt s a ∧ hgt s (At a b t) = r ∧ 0 ≤ lat s (At a b t) ∧ lat s (At a b t) ≤ lat s s.2.v0

/-- A side with a unit normal. -/
structure Spec.Good (s : V2 K × Plane K) : Prop where
  unit : s.2.n.x ^ 2 + s.2.n.y ^ 2 = 1
  flat : s.2.n.dot (s.1.sub s.2.v0) = 0
  pos : 0 < lat s s.2.v0

theorem hgt_at (s : V2 K × Plane K) (a b : V2 K) (t : K) : hgt s (At a b t) = hgt s a + t * (hgt s b - hgt s a) := by
  simp only [hgt, V2.dot, V2.sub, At]; ring

theorem lat_at (s : V2 K × Plane K) (a b : V2 K) (t : K) : lat s (At a b t) = lat s a + t * (lat s b - lat s a) := by
  simp only [lat, V2.cross, V2.sub, At]; ring

theorem at_at (a b : V2 K) (t u f : K) : At (At a b t) (At a b u) f = At a b (t + f * (u - t)) := by
  simp only [At]; ext <;> simp only <;> ring

theorem side_dist2 {s : V2 K × Plane K} (hs : Good s) (x y : V2 K) :
    dist2 x y = (lat s x - lat s y) ^ 2 + (hgt s x - hgt s y) ^ 2 := by
  simp only [dist2, lat, hgt, V2.cross, V2.dot, V2.sub]
  linear_combination (-((x.x - y.x) ^ 2 + (x.y - y.y) ^ 2)) * hs.unit

theorem hgt_fst {s : V2 K × Plane K} (hs : Good s) : hgt s s.1 = 0 := hs.flat
theorem hgt_snd (s : V2 K × Plane K) : hgt s s.2.v0 = 0 := by simp [hgt, V2.dot, V2.sub]
theorem lat_fst (s : V2 K × Plane K) : lat s s.1 = 0 := by simp [lat, V2.cross, V2.sub]

theorem onSide_of {s : V2 K × Plane K} (hs : Good s) (x : V2 K) (h : hgt s x = 0) (h0 : 0 ≤ lat s x) (h1 : lat s x ≤ lat s s.2.v0) :
    OnSegment s.1 s.2.v0 x := by
  have hp := hs.pos
  refine ⟨lat s x / lat s s.2.v0, div_nonneg h0 (le_of_lt hp), (div_le_one hp).2 h1, ?_⟩
  set t := lat s x / lat s s.2.v0 with ht
  have hd : dist2 x (At s.1 s.2.v0 t) = 0 := by
    rw [side_dist2 hs, hgt_at, lat_at, hgt_fst hs, hgt_snd, lat_fst, h]
    have : t * lat s s.2.v0 = lat s x := div_mul_cancel₀ _ (ne_of_gt hp)
    rw [sub_zero, zero_add, this]; ring
  simp only [dist2] at hd
  ext
  · nlinarith [sq_nonneg (x.x - (At s.1 s.2.v0 t).x), sq_nonneg (x.y - (At s.1 s.2.v0 t).y)]
  · nlinarith [sq_nonneg (x.x - (At s.1 s.2.v0 t).x), sq_nonneg (x.y - (At s.1 s.2.v0 t).y)]

theorem onSide_lat {s : V2 K × Plane K} (hs : Good s) (x : V2 K) (h : OnSegment s.1 s.2.v0 x) :
    hgt s x = 0 ∧ 0 ≤ lat s x ∧ lat s x ≤ lat s s.2.v0 := by
  obtain ⟨t, h0, h1, rfl⟩ := h
  have hp := hs.pos
  rw [hgt_at, lat_at, hgt_fst hs, hgt_snd, lat_fst]
  refine ⟨by ring, ?_, ?_⟩
  · rw [zero_add, sub_zero]; exact mul_nonneg h0 (le_of_lt hp)
  · rw [zero_add, sub_zero]; nlinarith

theorem good_of_outline {l : List (Plane K)} (ho : Outline l) (hu : ∀ pl ∈ l, pl.n.x ^ 2 + pl.n.y ^ 2 = 1) (s : V2 K × Plane K)
    (hs : s ∈ sides l) : Good s := by
  obtain ⟨⟨c, hc, hn⟩, _⟩ := ho.2.2 s hs
  have hun := hu _ (mem_sidesFrom_snd hs)
  refine ⟨hun, ?_, ?_⟩
  · rw [hn]; simp only [V2.dot, V2.sub, V2.scale, V2.rperp]; ring
  · have e : lat s s.2.v0 * c = 1 := by
      rw [← hun]
      simp only [lat, hn, V2.cross, V2.sub, V2.scale, V2.rperp]; ring
    by_contra hcon
    push Not at hcon
    have := mul_nonpos_of_nonpos_of_nonneg hcon (le_of_lt hc)
    linarith

/-- From a point of the polygon towards a point outside: a side is met that the outer point lies beyond. -/
theorem boundary_walk {l : List (Plane K)} (ho : Outline l) (p x : V2 K)
    (hp : ¬ Hull (l.map Plane.v0) p) (hx : Hull (l.map Plane.v0) x) :
    ∃ s ∈ sides l, 0 < hgt s p ∧ ∃ τ, 0 ≤ τ ∧ τ ≤ 1 ∧ OnSegment s.1 s.2.v0 (At x p τ) := by
  classical
  rw [hull_iff_inside ho] at hp
  have hxi := hull_inside ho x hx
  let bad := (sides l).filter fun s => 0 < hgt s p
  have hbad : bad ≠ [] := by
    simp only [Inside] at hp
    push Not at hp
    obtain ⟨s, hs, hlt⟩ := hp
    exact List.ne_nil_of_mem (List.mem_filter.2 ⟨hs, decide_eq_true (show 0 < hgt s p from hlt)⟩)
  have hb : ∀ s ∈ bad, s ∈ sides l ∧ 0 < hgt s p := by
    intro s hs
    have := List.mem_filter.1 hs
    exact ⟨this.1, by simpa using this.2⟩
  let τ : V2 K × Plane K → K := fun s => -hgt s x / (hgt s p - hgt s x)
  obtain ⟨s, hs, hmin⟩ := exists_least τ bad hbad
  have hgx : ∀ s ∈ sides l, hgt s x ≤ 0 := hxi
  have hden : ∀ s ∈ bad, 0 < hgt s p - hgt s x := fun s hs => by have := hgx s (hb s hs).1; have := (hb s hs).2; linarith
  have hτ0 : ∀ s ∈ bad, 0 ≤ τ s := fun s hs => div_nonneg (by have := hgx s (hb s hs).1; linarith) (le_of_lt (hden s hs))
  have hτ1 : ∀ s ∈ bad, τ s ≤ 1 := fun s hs => (div_le_one (hden s hs)).2 (by have := (hb s hs).2; linarith)
  have hy : Inside l (At x p (τ s)) := by
    intro q hq
    change hgt q (At x p (τ s)) ≤ 0
    rw [hgt_at]
    by_cases hqb : 0 < hgt q p
    · have hqm : q ∈ bad := List.mem_filter.2 ⟨hq, by simpa using hqb⟩
      have h2 : τ s * (hgt q p - hgt q x) ≤ τ q * (hgt q p - hgt q x) := mul_le_mul_of_nonneg_right (hmin q hqm) (le_of_lt (hden q hqm))
      have h3 : τ q * (hgt q p - hgt q x) = -hgt q x := div_mul_cancel₀ _ (ne_of_gt (hden q hqm))
      linarith
    · have h1 := hgx q hq
      have := hτ0 s hs
      have := hτ1 s hs
      nlinarith
  have hy0 : s.2.n.dot ((At x p (τ s)).sub s.2.v0) = 0 := by
    change hgt s (At x p (τ s)) = 0
    rw [hgt_at]
    have : τ s * (hgt s p - hgt s x) = -hgt s x := div_mul_cancel₀ _ (ne_of_gt (hden s hs))
    linarith
  exact ⟨s, (hb s hs).1, (hb s hs).2, τ s, hτ0 s hs, hτ1 s hs, hull_on_side ho s (hb s hs).1 _ (inside_hull ho _ hy) hy0⟩

/-- Between a moment beside the strip above a side and a moment in it, at heights between 0 and `r`, one of its ends is touched. -/
theorem strip_enter {s : V2 K × Plane K} (hs : Good s) (r : K) (a b : V2 K) (t0 t : K) (ht : t0 ≤ t)
    (h0 : 0 ≤ hgt s (At a b t0)) (h0' : hgt s (At a b t0) ≤ r) (h1 : 0 ≤ hgt s (At a b t)) (h1' : hgt s (At a b t) ≤ r)
    (hw : lat s (At a b t0) < 0 ∨ lat s s.2.v0 < lat s (At a b t0)) (hi : 0 ≤ lat s (At a b t)) (hi' : lat s (At a b t) ≤ lat s s.2.v0) :
    ∃ u, t0 ≤ u ∧ u ≤ t ∧ (Touches s.1 r a b u ∨ Touches s.2.v0 r a b u) := by
  have cross : ∀ k : K, (lat s (At a b t0) < k ∧ k ≤ lat s (At a b t)) ∨ (k < lat s (At a b t0) ∧ lat s (At a b t) ≤ k) →
      ∃ u, t0 ≤ u ∧ u ≤ t ∧ lat s (At a b u) = k ∧ hgt s (At a b u) ^ 2 ≤ r * r := by
    intro k hk
    have hne : lat s (At a b t) - lat s (At a b t0) ≠ 0 := by
      rcases hk with ⟨h1, h2⟩ | ⟨h1, h2⟩
      · exact ne_of_gt (by linarith)
      · exact ne_of_lt (by linarith)
    obtain ⟨f, hfm, hf0, hf1⟩ : ∃ f : K, f * (lat s (At a b t) - lat s (At a b t0)) = k - lat s (At a b t0) ∧ 0 ≤ f ∧ f ≤ 1 := by
      refine ⟨(k - lat s (At a b t0)) / (lat s (At a b t) - lat s (At a b t0)), div_mul_cancel₀ _ hne, ?_, ?_⟩
      · rcases hk with ⟨h1, h2⟩ | ⟨h1, h2⟩
        · exact div_nonneg (by linarith) (by linarith)
        · exact div_nonneg_of_nonpos (by linarith) (by linarith)
      · rcases hk with ⟨h1, h2⟩ | ⟨h1, h2⟩
        · rw [div_le_one (by linarith)]; linarith
        · rw [div_le_one_of_neg (by linarith)]; linarith
    refine ⟨t0 + f * (t - t0), ?_, ?_, ?_, ?_⟩
    · have := mul_nonneg hf0 (sub_nonneg.2 ht); linarith
    · have := mul_le_mul_of_nonneg_right hf1 (sub_nonneg.2 ht); linarith
    · rw [← at_at, lat_at, hfm]; ring
    · rw [← at_at, hgt_at]
      have b1 := mul_nonneg hf0 h1
      have b2 := mul_nonneg (sub_nonneg.2 hf1) h0
      have b3 := mul_le_mul_of_nonneg_left h1' hf0
      have b4 := mul_le_mul_of_nonneg_left h0' (sub_nonneg.2 hf1)
      have c1 : 0 ≤ hgt s (At a b t0) + f * (hgt s (At a b t) - hgt s (At a b t0)) := by linarith
      have c2 : hgt s (At a b t0) + f * (hgt s (At a b t) - hgt s (At a b t0)) ≤ r := by linarith
      rw [sq]
      exact mul_self_le_mul_self c1 c2
  rcases hw with h | h
  · obtain ⟨u, u0, u1, e, hu⟩ := cross 0 (Or.inl ⟨h, hi⟩)
    refine ⟨u, u0, u1, Or.inl ?_⟩
    rw [Touches, side_dist2 hs, e, lat_fst, hgt_fst hs, sub_zero, sub_zero]
    linarith
  · obtain ⟨u, u0, u1, e, hu⟩ := cross (lat s s.2.v0) (Or.inr ⟨h, hi'⟩)
    refine ⟨u, u0, u1, Or.inr ?_⟩
    rw [Touches, side_dist2 hs, e, hgt_snd, sub_zero, sub_self]
    linarith

/-- Coming from above a side into the strip over it: the offset side is met or an end is touched. -/
theorem strip_above {s : V2 K × Plane K} (hs : Good s) (r : K) (hr : 0 ≤ r) (a b : V2 K) (t : K) (ht0 : 0 ≤ t) (ht1 : t ≤ 1)
    (ha : 0 ≤ hgt s a) (hna : r < hgt s a ∨ lat s a < 0 ∨ lat s s.2.v0 < lat s a)
    (h1 : 0 ≤ hgt s (At a b t)) (h1' : hgt s (At a b t) ≤ r) (hi : 0 ≤ lat s (At a b t)) (hi' : lat s (At a b t) ≤ lat s s.2.v0) :
    ∃ u, 0 ≤ u ∧ u ≤ t ∧ (EdgeHit r a b s u ∨ Touches s.1 r a b u ∨ Touches s.2.v0 r a b u) := by
  have hat : At a b 0 = a := by simp [At]
  rcases lt_or_ge r (hgt s a) with hgt' | hle
  · -- the height r is passed
    have hd : hgt s b - hgt s a < 0 := by
      rw [hgt_at] at h1'
      by_contra hcon; push Not at hcon
      have := mul_nonneg ht0 hcon
      linarith
    obtain ⟨t0, ht00, ht0t, e⟩ : ∃ t0, 0 ≤ t0 ∧ t0 ≤ t ∧ hgt s (At a b t0) = r := by
      refine ⟨(hgt s a - r) / -(hgt s b - hgt s a), div_nonneg (by linarith) (by linarith), ?_, ?_⟩
      · rw [div_le_iff₀ (by linarith)]; rw [hgt_at] at h1'; linarith
      · rw [hgt_at]
        have : (hgt s a - r) / -(hgt s b - hgt s a) * -(hgt s b - hgt s a) = hgt s a - r := div_mul_cancel₀ _ (by linarith : -(hgt s b - hgt s a) > 0).ne'
        linarith
    by_cases hl : 0 ≤ lat s (At a b t0) ∧ lat s (At a b t0) ≤ lat s s.2.v0
    · exact ⟨t0, ht00, ht0t, Or.inl ⟨ht00, ht0t.trans ht1, le_of_lt hgt', by intro h; linarith, e, hl.1, hl.2⟩⟩
    · have hw : lat s (At a b t0) < 0 ∨ lat s s.2.v0 < lat s (At a b t0) := by
        by_contra hcon; push Not at hcon; exact hl hcon
      obtain ⟨u, u0, u1, hu⟩ := strip_enter hs r a b t0 t ht0t (by rw [e]; exact hr) (le_of_eq e) h1 h1' hw hi hi'
      exact ⟨u, ht00.trans u0, u1, Or.inr hu⟩
  · have hw : lat s (At a b 0) < 0 ∨ lat s s.2.v0 < lat s (At a b 0) := by
      rw [hat]
      rcases hna with h | h
      · exact absurd h (not_lt.2 hle)
      · exact h
    obtain ⟨u, u0, u1, hu⟩ := strip_enter hs r a b 0 t ht0 (by rw [hat]; exact ha) (by rw [hat]; exact hle) h1 h1' hw hi hi'
    exact ⟨u, u0, u1, Or.inr hu⟩

/-- A touch of an offset side is a touch of the polygon, and nothing is touched before it. -/
theorem edgeHit_first {l : List (Plane K)} (ho : Outline l) (hu : ∀ pl ∈ l, pl.n.x ^ 2 + pl.n.y ^ 2 = 1) (r : K) (hr : 0 ≤ r) (a b : V2 K)
    (s : V2 K × Plane K) (hs : s ∈ sides l) (t : K) (h : EdgeHit r a b s t) : First (TouchesHull l r a b) t := by
  have hg := good_of_outline ho hu s hs
  obtain ⟨t0, t1, ha, hne, e, l0, l1⟩ := h
  have hp := hg.pos
  refine ⟨t0, t1, ?_, ?_⟩
  · -- the foot of the perpendicular
    set f := lat s (At a b t) / lat s s.2.v0 with hf
    have hfm : f * lat s s.2.v0 = lat s (At a b t) := div_mul_cancel₀ _ (ne_of_gt hp)
    refine ⟨At s.1 s.2.v0 f, side_hull hs _ ⟨f, div_nonneg l0 (le_of_lt hp), (div_le_one hp).2 l1, rfl⟩, ?_⟩
    rw [side_dist2 hg, lat_at s s.1, hgt_at s s.1, lat_fst, hgt_fst hg, hgt_snd, e, sub_zero, zero_add, hfm]
    apply le_of_eq; ring
  · rintro u u0 u1 ⟨x, hx, hd⟩
    have hgx : hgt s x ≤ 0 := hull_inside ho x hx s hs
    rw [side_dist2 hg] at hd
    have hh := (abs_le_of_sq_le _ _ r hr hd).2
    rw [abs_le] at hh
    by_contra hcon
    push Not at hcon
    have h3 : hgt s (At a b u) ≤ r := by linarith
    rw [hgt_at] at h3 e
    -- decreasing
    have hdn : hgt s b - hgt s a < 0 := by
      rcases lt_trichotomy (hgt s b - hgt s a) 0 with h | h | h
      · exact h
      · exact absurd (by linarith) hne
      · exfalso
        have := mul_pos (lt_of_le_of_lt u0 hcon) h
        linarith
    have := mul_lt_mul_of_neg_right hcon hdn
    linarith

/-- From a start that does not touch: whenever the polygon is touched, an offset side is met or a vertex is touched no later; and
with radius zero a side is met. -/
theorem touch_cover {l : List (Plane K)} (ho : Outline l) (hu : ∀ pl ∈ l, pl.n.x ^ 2 + pl.n.y ^ 2 = 1) (r : K) (hr : 0 ≤ r) (a b : V2 K)
    (hout : ¬ TouchesHull l r a b 0) (t : K) (ht0 : 0 ≤ t) (ht1 : t ≤ 1) (h : TouchesHull l r a b t) :
    ∃ u, 0 ≤ u ∧ u ≤ t ∧ ((∃ s ∈ sides l, EdgeHit r a b s u) ∨ (0 < r ∧ ∃ w ∈ l, Touches w.v0 r a b u)) := by
  have hat : At a b 0 = a := by simp [At]
  have hah : ¬ Hull (l.map Plane.v0) a := by
    intro hc
    apply hout
    refine ⟨a, hc, ?_⟩
    rw [hat]
    have : dist2 a a = 0 := by simp [dist2]
    rw [this]; exact mul_self_nonneg _
  -- a position not touching is above r or beside
  have hfar : ∀ s ∈ sides l, 0 ≤ hgt s a → r < hgt s a ∨ lat s a < 0 ∨ lat s s.2.v0 < lat s a := by
    intro s hs ha
    have hg := good_of_outline ho hu s hs
    by_contra hcon
    push Not at hcon
    obtain ⟨c1, c2, c3⟩ := hcon
    apply hout
    have hp := hg.pos
    set f := lat s a / lat s s.2.v0 with hf
    have hfm : f * lat s s.2.v0 = lat s a := div_mul_cancel₀ _ (ne_of_gt hp)
    refine ⟨At s.1 s.2.v0 f, side_hull hs _ ⟨f, div_nonneg c2 (le_of_lt hp), (div_le_one hp).2 c3, rfl⟩, ?_⟩
    rw [hat, side_dist2 hg, lat_at s s.1, hgt_at s s.1, lat_fst, hgt_fst hg, hgt_snd, sub_zero, zero_add, hfm]
    nlinarith
  have verts : ∀ s ∈ sides l, ∀ u, Touches s.1 r a b u ∨ Touches s.2.v0 r a b u → ∃ w ∈ l, Touches w.v0 r a b u := by
    intro s hs u hh
    rcases hh with hh | hh
    · obtain ⟨w, hw, e⟩ := mem_sides_fst hs
      exact ⟨w, hw, e ▸ hh⟩
    · exact ⟨s.2, mem_sidesFrom_snd hs, hh⟩
  -- inside the polygon itself: a side was crossed that the start lies beyond
  have inner : ∀ u, 0 ≤ u → u ≤ 1 → Hull (l.map Plane.v0) (At a b u) →
      ∃ s ∈ sides l, 0 < hgt s a ∧ ∃ v, 0 ≤ v ∧ v ≤ u ∧ OnSegment s.1 s.2.v0 (At a b v) := by
    intro u u0 u1 hc
    obtain ⟨s, hs, hpos, τ, τ0, τ1, hon⟩ := boundary_walk ho a (At a b u) hah hc
    refine ⟨s, hs, hpos, u + τ * (0 - u), ?_, ?_, ?_⟩
    · nlinarith
    · nlinarith
    · have := at_at a b u 0 τ
      rw [hat] at this
      rw [← this]; exact hon
  rcases hr.lt_or_eq with hrp | rfl
  · -- positive radius
    have finish : ∀ s ∈ sides l, 0 ≤ hgt s a → ∀ u, 0 ≤ u → u ≤ 1 → 0 ≤ hgt s (At a b u) → hgt s (At a b u) ≤ r →
        0 ≤ lat s (At a b u) → lat s (At a b u) ≤ lat s s.2.v0 →
        ∃ v, 0 ≤ v ∧ v ≤ u ∧ ((∃ s ∈ sides l, EdgeHit r a b s v) ∨ (0 < r ∧ ∃ w ∈ l, Touches w.v0 r a b v)) := by
      intro s hs ha u u0 u1 c1 c2 c3 c4
      obtain ⟨v, v0, v1, hv⟩ := strip_above (good_of_outline ho hu s hs) r hr a b u u0 u1 ha (hfar s hs ha) c1 c2 c3 c4
      refine ⟨v, v0, v1, ?_⟩
      rcases hv with hv | hv
      · exact Or.inl ⟨s, hs, hv⟩
      · exact Or.inr ⟨hrp, verts s hs v hv⟩
    have finishIn : ∀ u, 0 ≤ u → u ≤ 1 → Hull (l.map Plane.v0) (At a b u) →
        ∃ v, 0 ≤ v ∧ v ≤ u ∧ ((∃ s ∈ sides l, EdgeHit r a b s v) ∨ (0 < r ∧ ∃ w ∈ l, Touches w.v0 r a b v)) := by
      intro u u0 u1 hc
      obtain ⟨s, hs, hpos, v, v0, v1, hon⟩ := inner u u0 u1 hc
      obtain ⟨e1, e2, e3⟩ := onSide_lat (good_of_outline ho hu s hs) _ hon
      obtain ⟨w, w0, w1, hw⟩ := finish s hs (le_of_lt hpos) v v0 (v1.trans u1) (le_of_eq e1.symm) (by rw [e1]; exact hr) e2 e3
      exact ⟨w, w0, w1.trans v1, hw⟩
    by_cases hc : Hull (l.map Plane.v0) (At a b t)
    · exact finishIn t ht0 ht1 hc
    · obtain ⟨x, hx, hd⟩ := h
      obtain ⟨s, hs, hpos, τ, τ0, τ1, hon⟩ := boundary_walk ho (At a b t) x hc hx
      have hg := good_of_outline ho hu s hs
      obtain ⟨e1, e2, e3⟩ := onSide_lat hg _ hon
      have hd' : dist2 (At a b t) (At x (At a b t) τ) ≤ r * r := by
        have e : dist2 (At a b t) (At x (At a b t) τ) = (1 - τ) ^ 2 * dist2 (At a b t) x := by
          simp only [dist2, At]; ring
        rw [e]
        have h1 : (1 - τ) ^ 2 ≤ 1 := by nlinarith
        have := mul_le_mul_of_nonneg_right h1 (dist2_nonneg (At a b t) x)
        linarith
      rw [side_dist2 hg, e1, sub_zero] at hd'
      have hhr : hgt s (At a b t) ≤ r := (abs_le.1 (abs_le_of_sq_le _ _ r hr hd').2).2
      rcases lt_or_ge (lat s (At a b t)) 0 with hneg | hnn
      · refine ⟨t, ht0, le_refl _, Or.inr ⟨hrp, verts s hs t (Or.inl ?_)⟩⟩
        rw [Touches, side_dist2 hg, lat_fst, hgt_fst hg, sub_zero, sub_zero]
        nlinarith
      · rcases lt_or_ge (lat s s.2.v0) (lat s (At a b t)) with hbig | hle
        · refine ⟨t, ht0, le_refl _, Or.inr ⟨hrp, verts s hs t (Or.inr ?_)⟩⟩
          rw [Touches, side_dist2 hg, hgt_snd, sub_zero]
          nlinarith
        · rcases lt_or_ge (hgt s a) 0 with hbehind | habove
          · -- the line of the side is crossed from behind
            have hdp : 0 < hgt s b - hgt s a := by
              rw [hgt_at] at hpos
              by_contra hcon; push Not at hcon
              have := mul_nonpos_of_nonneg_of_nonpos ht0 hcon
              linarith
            obtain ⟨t0, ht00, ht0t, e⟩ : ∃ t0, 0 ≤ t0 ∧ t0 ≤ t ∧ hgt s (At a b t0) = 0 := by
              refine ⟨-hgt s a / (hgt s b - hgt s a), div_nonneg (by linarith) (le_of_lt hdp), ?_, ?_⟩
              · rw [div_le_iff₀ hdp]; rw [hgt_at] at hpos; linarith
              · rw [hgt_at, div_mul_cancel₀ _ (ne_of_gt hdp)]; ring
            by_cases hl : 0 ≤ lat s (At a b t0) ∧ lat s (At a b t0) ≤ lat s s.2.v0
            · obtain ⟨u, u0, u1, hh⟩ := finishIn t0 ht00 (ht0t.trans ht1) (side_hull hs _ (onSide_of hg _ e hl.1 hl.2))
              exact ⟨u, u0, u1.trans ht0t, hh⟩
            · have hw : lat s (At a b t0) < 0 ∨ lat s s.2.v0 < lat s (At a b t0) := by
                by_contra hcon; push Not at hcon; exact hl hcon
              obtain ⟨u, u0, u1, hh⟩ := strip_enter hg r a b t0 t ht0t (le_of_eq e.symm) (by rw [e]; exact hr) (le_of_lt hpos) hhr hw hnn hle
              exact ⟨u, ht00.trans u0, u1, Or.inr ⟨hrp, verts s hs u hh⟩⟩
          · exact finish s hs habove t ht0 ht1 (le_of_lt hpos) hhr hnn hle
  · -- radius zero
    obtain ⟨x, hx, hd⟩ := h
    rw [mul_zero] at hd
    have hxe : At a b t = x := by
      have h4 := le_antisymm hd (dist2_nonneg _ _)
      simp only [dist2] at h4
      ext
      · nlinarith [sq_nonneg ((At a b t).x - x.x), sq_nonneg ((At a b t).y - x.y)]
      · nlinarith [sq_nonneg ((At a b t).x - x.x), sq_nonneg ((At a b t).y - x.y)]
    obtain ⟨s, hs, hpos, v, v0, v1, hon⟩ := inner t ht0 ht1 (hxe ▸ hx)
    obtain ⟨e1, e2, e3⟩ := onSide_lat (good_of_outline ho hu s hs) _ hon
    refine ⟨v, v0, v1, Or.inl ⟨s, hs, v0, v1.trans ht1, le_of_lt hpos, ?_, e1, e2, e3⟩⟩
    intro h
    rw [hgt_at, h] at e1
    linarith

/-! ## The two loops -/

theorem edge_query {s : V2 K × Plane K} (hs : Good s) (a b : V2 K) (r r2 : K) (prev : Plane K) (hprev : prev.v0 = s.1) (info : SegInfo K) :
    (polyEdgeQuery a b r r2 prev s.2 info = info ∧ ∀ t, ¬ EdgeHit r a b s t) ∨
    ∃ t, EdgeHit r a b s t ∧ polyEdgeQuery a b r r2 prev s.2 info = ⟨true, (At a b t).sub (s.2.n.scale r2), s.2.n, t⟩ := by
  have hA : a.dot s.2.n - s.2.v0.dot s.2.n - r = hgt s a - r := by simp only [hgt, V2.dot, V2.sub]; ring
  have hB : a.dot s.2.n - b.dot s.2.n = hgt s a - hgt s b := by simp only [hgt, V2.dot, V2.sub]; ring
  have uniq : ∀ t, EdgeHit r a b s t → t = (hgt s a - r) / (hgt s a - hgt s b) ∧ hgt s a - hgt s b ≠ 0 := by
    rintro t ⟨_, _, _, hne, e, _⟩
    have hn : hgt s a - hgt s b ≠ 0 := fun h => hne (by linarith)
    refine ⟨?_, hn⟩
    rw [eq_div_iff hn]
    rw [hgt_at] at e
    linarith
  unfold polyEdgeQuery
  simp only [hA, hB]
  by_cases h1 : hgt s a - r < 0
  · rw [if_pos h1]
    left
    refine ⟨rfl, fun t ht => ?_⟩
    have := ht.2.2.1
    linarith
  · rw [if_neg h1]
    by_cases h2 : a.dot s.2.n = b.dot s.2.n ∨ (hgt s a - r) / (hgt s a - hgt s b) < 0 ∨ 1 < (hgt s a - r) / (hgt s a - hgt s b)
    · rw [if_pos h2]
      left
      refine ⟨rfl, fun t ht => ?_⟩
      obtain ⟨e, hn⟩ := uniq t ht
      rcases h2 with h | h | h
      · apply hn; rw [← hB, h, sub_self]
      · rw [← e] at h; exact absurd ht.1 (not_le.2 h)
      · rw [← e] at h; exact absurd ht.2.1 (not_le.2 h)
    · rw [if_neg h2]
      push Not at h2
      obtain ⟨k1, k2, k3⟩ := h2
      have hn : hgt s a - hgt s b ≠ 0 := by rw [← hB]; exact sub_ne_zero.2 k1
      set t := (hgt s a - r) / (hgt s a - hgt s b) with ht
      rw [lerp_at]
      have c1 : s.2.n.cross prev.v0 ≤ s.2.n.cross (At a b t) ↔ 0 ≤ lat s (At a b t) := by
        rw [hprev]
        have : lat s (At a b t) = s.2.n.cross (At a b t) - s.2.n.cross s.1 := by simp only [lat, V2.cross, V2.sub]; ring
        rw [this, sub_nonneg]
      have c2 : s.2.n.cross (At a b t) ≤ s.2.n.cross s.2.v0 ↔ lat s (At a b t) ≤ lat s s.2.v0 := by
        have : lat s s.2.v0 - lat s (At a b t) = s.2.n.cross s.2.v0 - s.2.n.cross (At a b t) := by simp only [lat, V2.cross, V2.sub]; ring
        rw [← sub_nonneg, ← this, sub_nonneg]
      by_cases h3 : 0 ≤ lat s (At a b t) ∧ lat s (At a b t) ≤ lat s s.2.v0
      · rw [if_pos ⟨c1.2 h3.1, c2.2 h3.2⟩]
        right
        refine ⟨t, ⟨k2, k3, by linarith, fun h => hn (by linarith), ?_, h3.1, h3.2⟩, rfl⟩
        rw [hgt_at]
        have : t * (hgt s a - hgt s b) = hgt s a - r := div_mul_cancel₀ _ hn
        linarith
      · rw [if_neg (fun h => h3 ⟨c1.1 h.1, c2.1 h.2⟩)]
        left
        refine ⟨rfl, fun u hu => ?_⟩
        obtain ⟨e, _⟩ := uniq u hu
        exact h3 ⟨e ▸ hu.2.2.2.2.2.1, e ▸ hu.2.2.2.2.2.2⟩

theorem edges_query (a b : V2 K) (r r2 : K) (l : List (Plane K)) : ∀ (prev : Plane K) (info : SegInfo K),
    (∀ s ∈ sidesFrom prev.v0 l, Good s) →
    (polyEdgesQuery a b r r2 prev l info = info ∧ ∀ s ∈ sidesFrom prev.v0 l, ∀ t, ¬ EdgeHit r a b s t) ∨
    ∃ s ∈ sidesFrom prev.v0 l, ∃ t, EdgeHit r a b s t ∧ polyEdgesQuery a b r r2 prev l info = ⟨true, (At a b t).sub (s.2.n.scale r2), s.2.n, t⟩ := by
  induction l with
  | nil => intro prev info _; left; exact ⟨rfl, by simp [sidesFrom]⟩
  | cons pl l ih =>
    intro prev info hg
    have hg0 : Good (prev.v0, pl) := hg _ (by simp [sidesFrom])
    have hg' : ∀ s ∈ sidesFrom pl.v0 l, Good s := fun s hs => hg s (by simp only [sidesFrom, List.mem_cons]; exact Or.inr hs)
    simp only [polyEdgesQuery]
    rcases ih pl (polyEdgeQuery a b r r2 prev pl info) hg' with ⟨e, hno⟩ | ⟨s, hs, t, ht, e⟩
    · rcases edge_query hg0 a b r r2 prev rfl info with ⟨e', hno'⟩ | ⟨t, ht, e'⟩
      · left
        refine ⟨e.trans e', ?_⟩
        intro s hs
        simp only [sidesFrom, List.mem_cons] at hs
        rcases hs with rfl | hs
        · exact hno'
        · exact hno s hs
      · right
        exact ⟨(prev.v0, pl), by simp [sidesFrom], t, ht, e.trans e'⟩
    · right
      exact ⟨s, by simp only [sidesFrom, List.mem_cons]; exact Or.inr hs, t, ht, e⟩

theorem verts_query {M : Mth K} (hM : M.Lawful) (r1 r2 : K) (a b : V2 K) (hr : 0 < r1 + r2) (hab : a ≠ b) (l : List (Plane K)) : ∀ info : SegInfo K,
    (∀ w ∈ l, (r1 + r2) * (r1 + r2) < dist2 a w.v0) → info.alpha ≤ 1 →
    let q := polyVertsQuery M r1 a b r2 l info
    q.alpha ≤ info.alpha ∧ (∀ w ∈ l, ∀ u, 0 ≤ u → u ≤ 1 → Touches w.v0 (r1 + r2) a b u → q.alpha ≤ u) ∧
    (q = info ∨ (q.alpha < info.alpha ∧ q.hit = true ∧ q.normal.x ^ 2 + q.normal.y ^ 2 = 1 ∧ ∃ w ∈ l, 0 ≤ q.alpha ∧ Touches w.v0 (r1 + r2) a b q.alpha)) := by
  induction l with
  | nil => intro info _ _; simp [polyVertsQuery]
  | cons pl l ih =>
    intro info hout hle
    obtain ⟨c1, c2, c3, c4⟩ := cap_one hM pl.v0 r1 r2 a b hr hab (hout pl (by simp))
    simp only [polyVertsQuery]
    set ci := circleSegmentQuery M pl.v0 r1 a b r2 (SegInfo.blank b)
    set nx := if ci.alpha < info.alpha then ci else info with hnx
    have hnx1 : nx.alpha ≤ info.alpha ∧ nx.alpha ≤ ci.alpha := by
      rw [hnx]; split
      · rename_i h; exact ⟨le_of_lt h, le_refl _⟩
      · rename_i h; exact ⟨le_refl _, not_lt.1 h⟩
    obtain ⟨k1, k2, k3⟩ := ih nx (fun w hw => hout w (List.mem_cons_of_mem _ hw)) (hnx1.1.trans hle)
    refine ⟨k1.trans hnx1.1, ?_, ?_⟩
    · intro w hw u u0 u1 hu
      rcases List.mem_cons.1 hw with rfl | hw
      · exact k1.trans (hnx1.2.trans (c3 u u0 u1 hu).2)
      · exact k2 w hw u u0 u1 hu
    · rcases k3 with k3 | ⟨j1, j2, j3, w, hw, j4⟩
      · rw [k3]
        by_cases h : ci.alpha < info.alpha
        · rw [hnx, if_pos h]
          right
          have hit := c4 (lt_of_lt_of_le h hle)
          obtain ⟨f, hn⟩ := c2 hit
          exact ⟨h, hit, hn, pl, by simp, f.1, f.2.2.1⟩
        · rw [hnx, if_neg h]; exact Or.inl rfl
      · right
        exact ⟨lt_of_lt_of_le j1 hnx1.1, j2, j3, w, List.mem_cons_of_mem _ hw, j4⟩

/-- **C80.** Ray casts against a strictly convex polygon of any number of vertexes, with rounding, from a start that does not touch
it: a hit reports the least fraction at which the moving circle touches, with a unit normal; and every touch before the end of the way
makes a hit. -/
theorem C80_poly {M : Mth K} (hM : M.Lawful) (ps : Poly K) (a b : V2 K) (r2 : K) (hr : 0 ≤ ps.radius + r2) (hab : a ≠ b)
    (ho : Outline ps.world) (hu : ∀ pl ∈ ps.world, pl.n.x ^ 2 + pl.n.y ^ 2 = 1)
    (hout : ¬ TouchesHull ps.world (ps.radius + r2) a b 0) :
    let q := ps.segmentQuery M a b r2 (SegInfo.blank b)
    (q.hit = true → First (TouchesHull ps.world (ps.radius + r2) a b) q.alpha ∧ q.normal.x ^ 2 + q.normal.y ^ 2 = 1) ∧
    ((∃ t, 0 ≤ t ∧ t < 1 ∧ TouchesHull ps.world (ps.radius + r2) a b t) → q.hit = true) := by
  set r := ps.radius + r2 with hrd
  have hgood : ∀ s ∈ sides ps.world, Good s := good_of_outline ho hu
  have hcover := touch_cover ho hu r hr a b hout
  have hE := edges_query a b r r2 ps.world (ps.world.getLastD ⟨V2.zero, V2.zero⟩) (SegInfo.blank b) hgood
  change (_ ∧ ∀ s ∈ sides ps.world, _) ∨ ∃ s ∈ sides ps.world, _ at hE
  intro q
  have hq : q = ps.segmentQuery M a b r2 (SegInfo.blank b) := rfl
  clear_value q
  unfold Poly.segmentQuery at hq
  simp only [← hrd] at hq
  set e := polyEdgesQuery a b r r2 (ps.world.getLastD ⟨V2.zero, V2.zero⟩) ps.world (SegInfo.blank b) with he
  have hunit : ∀ s ∈ sides ps.world, s.2.n.x ^ 2 + s.2.n.y ^ 2 = 1 := fun s hs => (hgood s hs).unit
  -- the state after the sides
  have hE' : e.alpha ≤ 1 ∧ (e.hit = true → First (TouchesHull ps.world r a b) e.alpha ∧ e.normal.x ^ 2 + e.normal.y ^ 2 = 1) ∧
      ((∃ s ∈ sides ps.world, ∃ u, EdgeHit r a b s u) → e.hit = true) ∧ (e.hit = true ∨ e = SegInfo.blank b) := by
    rcases hE with ⟨h1, h2⟩ | ⟨s, hs, t, ht, h⟩
    · rw [h1]
      exact ⟨le_refl _, fun h => by simp [SegInfo.blank] at h, fun ⟨s, hs, u, hu⟩ => (h2 s hs u hu).elim, Or.inr rfl⟩
    · rw [h]
      exact ⟨ht.2.1, fun _ => ⟨edgeHit_first ho hu r hr a b s hs t ht, hunit s hs⟩, fun _ => rfl, Or.inl rfl⟩
  clear_value e
  obtain ⟨e1, e2, e3, e4⟩ := hE'
  rcases hr.lt_or_eq with hrp | hr0
  · rw [if_pos hrp] at hq
    have hvout : ∀ w ∈ ps.world, r * r < dist2 a w.v0 := by
      intro w hw
      by_contra hcon
      push Not at hcon
      apply hout
      have hat : At a b 0 = a := by simp [At]
      exact ⟨w.v0, .vert _ (List.mem_map_of_mem hw), by rw [hat]; exact hcon⟩
    obtain ⟨k1, k2, k3⟩ := verts_query hM ps.radius r2 a b hrp hab ps.world e hvout e1
    rw [← hq] at k1 k2 k3
    have hlow : q.hit = true → ∀ t, 0 ≤ t → t ≤ 1 → TouchesHull ps.world r a b t → q.alpha ≤ t := by
      intro _ t t0 t1 ht
      obtain ⟨u, u0, u1, hh⟩ := hcover t t0 t1 ht
      rcases hh with ⟨s, hs, hh⟩ | ⟨_, w, hw, hh⟩
      · have := (e2 (e3 ⟨s, hs, u, hh⟩)).1.2.2.2 u u0 (u1.trans t1) (edgeHit_first ho hu r hr a b s hs u hh).2.2.1
        exact k1.trans (this.trans u1)
      · exact (k2 w hw u u0 (u1.trans t1) hh).trans u1
    constructor
    · intro hit
      rcases k3 with k3 | ⟨j1, j2, j3, w, hw, j4, j5⟩
      · rw [k3] at hit ⊢; exact e2 hit
      · exact ⟨⟨j4, (le_of_lt j1).trans e1, ⟨w.v0, .vert _ (List.mem_map_of_mem hw), j5⟩, hlow hit⟩, j3⟩
    · rintro ⟨t, t0, t1, ht⟩
      rcases k3 with k3 | ⟨j1, j2, _⟩
      · rw [k3] at k2 ⊢
        rcases e4 with h | h
        · exact h
        · exfalso
          obtain ⟨u, u0, u1, hh⟩ := hcover t t0 (le_of_lt t1) ht
          rcases hh with ⟨s, hs, hh⟩ | ⟨_, w, hw, hh⟩
          · have := e3 ⟨s, hs, u, hh⟩
            rw [h] at this; simp [SegInfo.blank] at this
          · have h5 := k2 w hw u u0 (u1.trans (le_of_lt t1)) hh
            rw [h] at h5
            simp only [SegInfo.blank] at h5
            linarith
      · exact j2
  · rw [if_neg (by rw [← hr0]; exact lt_irrefl _)] at hq
    rw [hq]
    refine ⟨e2, ?_⟩
    rintro ⟨t, t0, t1, ht⟩
    obtain ⟨u, u0, u1, hh⟩ := hcover t t0 (le_of_lt t1) ht
    rcases hh with ⟨s, hs, hh⟩ | ⟨h, _⟩
    · exact e3 ⟨s, hs, u, hh⟩
    · exact absurd h (by rw [← hr0]; exact lt_irrefl _)

/-- The square with rounding 1/4: a ray from the left along its middle meets the left side at fraction 7/20; a ray towards a corner
meets the rounding. -/
example : exSquarePoly.segmentQuery gridMth ⟨-2, 1/2⟩ ⟨3, 1/2⟩ 0 (SegInfo.blank ⟨3, 1/2⟩) = ⟨true, ⟨-1/4, 1/2⟩, ⟨-1, 0⟩, 7/20⟩ := by
  decide +kernel

example : let q := exSquarePoly.segmentQuery gridMth ⟨-1, 5/4⟩ ⟨1, 5/4⟩ 0 (SegInfo.blank ⟨1, 5/4⟩)
    q.hit = true ∧ q.alpha = 1/2 := by decide +kernel

example : (0 : ℚ) ≤ exSquarePoly.radius + 0 ∧ (∀ pl ∈ exSquarePoly.world, pl.n.x ^ 2 + pl.n.y ^ 2 = 1) ∧
    ¬ TouchesHull exSquarePoly.world (exSquarePoly.radius + 0) ⟨-2, 1/2⟩ ⟨3, 1/2⟩ 0 := by
  refine ⟨by norm_num [exSquarePoly], by decide +kernel, ?_⟩
  rintro ⟨x, hx, hd⟩
  have : InBox (⟨0, 0, 1, 1⟩ : BB ℚ) x := inBox_hull _ _ (by
    simp only [exSquarePoly, List.map_cons, List.map_nil, List.mem_cons, List.not_mem_nil, or_false]
    rintro v (rfl | rfl | rfl | rfl) <;> norm_num [InBox]) x hx
  obtain ⟨h1, _⟩ := this
  simp only [dist2, At, exSquarePoly] at hd
  norm_num at hd
  nlinarith [sq_nonneg (1/2 - x.y)]

end Cm
