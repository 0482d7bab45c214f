import Verif.Props.HullArray
import Verif.Props.ShapePoly
/-! # C52: the convex hull -/
set_option linter.unusedSectionVars false
set_option linter.unusedSimpArgs false
set_option linter.unusedVariables false

namespace Cm
open Spec
variable {K : Type} [Field K] [LinearOrder K] [IsStrictOrderedRing K]

namespace Spec
/-- All points are on the left of the line through `a` in direction `d`, or on it. -/
def Supports (G : List (V2 K)) (a d : V2 K) : Prop := ∀ v ∈ G, 0 ≤ d.cross (v.sub a)

/-- No point is on the right of the line from `a` to `b`. -/
def NoneRight (G : List (V2 K)) (a b : V2 K) : Prop := ∀ v ∈ G, ¬ 0 < offset a b v

/-- What quickhull keeps about two vertexes `a` and `b` of the hull and the points `l` to be looked at between them. -/
structure QInv (P : V2 K → Prop) (G : List (V2 K)) (a b : V2 K) (l : List (V2 K)) : Prop where
  sub : ∀ v ∈ l, v ∈ G
  all : ∀ v ∈ G, 0 < offset a b v → v ∈ l
  up : P (b.sub a)
  cone : NoneRight G a b ∨ ∃ da db, Supports G a da ∧ Supports G b db ∧ 0 < da.cross (b.sub a) ∧ 0 < (b.sub a).cross db ∧
    (P da ∨ ∀ v ∈ G, v ≠ a → P (v.sub a)) ∧ (P db ∨ ∀ v ∈ G, v ≠ b → P (b.sub v))

/-- A way to order directions: sums and positive multiples of upward directions are upward. -/
structure UpWard (P : V2 K → Prop) : Prop where
  add : ∀ u v, P u → P v → P (u.add v)
  scale : ∀ u c, P u → 0 < c → P (u.scale c)
  zero : ¬ P V2.zero
end Spec

theorem upward_comb {P : V2 K → Prop} (hP : UpWard P) {u v : V2 K} {s t : K} (hu : P u) (hv : P v) (hs : 0 ≤ s) (ht : 0 < t) :
    P ((u.scale s).add (v.scale t)) := by
  rcases hs.eq_or_lt with h | h
  · have : (u.scale s).add (v.scale t) = v.scale t := by
      rw [← h]
      simp [V2.scale, V2.add]
    rw [this]
    exact hP.scale _ _ hv ht
  · exact hP.add _ _ (hP.scale _ _ hu h) (hP.scale _ _ hv ht)

/-- A direction between two others is a combination of them. -/
theorem between_dirs (d e w : V2 K) (h : d.cross e ≠ 0) :
    w = (d.scale ((w.cross e) / d.cross e)).add (e.scale ((d.cross w) / d.cross e)) := by
  ext
  · show w.x = d.x * (w.cross e / d.cross e) + e.x * (d.cross w / d.cross e)
    rw [mul_div_assoc', mul_div_assoc', ← add_div, eq_div_iff h]
    simp only [V2.cross]
    ring
  · show w.y = d.y * (w.cross e / d.cross e) + e.y * (d.cross w / d.cross e)
    rw [mul_div_assoc', mul_div_assoc', ← add_div, eq_div_iff h]
    simp only [V2.cross]
    ring

theorem offset_cross (a b v : V2 K) : offset a b v = (v.sub a).cross (b.sub a) := rfl

theorem cross_antisymm (u v : V2 K) : u.cross v = - v.cross u := by simp only [V2.cross]; ring

section step
variable {P : V2 K → Prop} (hP : UpWard P) {G : List (V2 K)} {a b p : V2 K} {l : List (V2 K)}

/-- The three products of four directions. -/
theorem cross_three (d u v w : V2 K) : d.cross u * v.cross w - d.cross v * u.cross w + d.cross w * u.cross v = 0 := by
  simp only [V2.cross]; ring

/-- Right of the side from `a` to a farthest point is right of the line from `a` to `b`. -/
theorem right_left (h : QInv P G a b l) (hp : p ∈ l) (hp0 : 0 < offset a b p) {v : V2 K} (hv : v ∈ G) (hr : 0 < offset a p v) :
    0 < offset a b v := by
  rcases h.cone with hn | ⟨da, db, h1, h2, h3, h4, -⟩
  · exact absurd hp0 (hn p (h.sub p hp))
  · have k := cross_three da (b.sub a) (p.sub a) (v.sub a)
    have ke := h1 p (h.sub p hp)
    have kw := h1 v hv
    rw [offset_cross] at hp0 hr ⊢
    rw [cross_antisymm (p.sub a) (v.sub a)] at k
    rw [cross_antisymm (b.sub a) (v.sub a), cross_antisymm (b.sub a) (p.sub a)] at k
    by_contra hn
    have hn := not_lt.1 hn
    nlinarith [mul_pos h3 hr, mul_nonneg kw hp0.le, mul_nonneg ke (neg_nonneg.2 hn)]

/-- Right of the side from a farthest point to `b` is right of the line from `a` to `b`. -/
theorem right_right (h : QInv P G a b l) (hp : p ∈ l) (hp0 : 0 < offset a b p) {v : V2 K} (hv : v ∈ G) (hr : 0 < offset p b v) :
    0 < offset a b v := by
  rcases h.cone with hn | ⟨da, db, h1, h2, h3, h4, -⟩
  · exact absurd hp0 (hn p (h.sub p hp))
  · have ke := h2 p (h.sub p hp)
    have kw := h2 v hv
    have e1 : offset p b v = (v.sub b).cross (b.sub p) := by simp only [offset, V2.cross, V2.sub]; ring
    have e2 : offset a b v = (v.sub b).cross (b.sub a) := by simp only [offset, V2.cross, V2.sub]; ring
    have e3 : offset a b p = (b.sub a).cross (b.sub p) := by simp only [offset, V2.cross, V2.sub]; ring
    have e4 : db.cross (p.sub b) = (b.sub p).cross db := by simp only [V2.cross, V2.sub]; ring
    have k := cross_three db (b.sub a) (b.sub p) (v.sub b)
    rw [e1] at hr
    rw [e3] at hp0
    rw [e2]
    rw [e4] at ke
    rw [cross_antisymm db (b.sub a), cross_antisymm (b.sub p) (v.sub b), cross_antisymm db (b.sub p),
      cross_antisymm (b.sub a) (v.sub b)] at k
    by_contra hn
    have hn := not_lt.1 hn
    nlinarith [mul_pos h4 hr, mul_nonneg kw hp0.le, mul_nonneg ke (neg_nonneg.2 hn)]

/-- Nothing is right of both sides. -/
theorem not_both (hmax : offset a b v ≤ offset a b p) (h1 : 0 < offset a p v) (h2 : 0 < offset p b v) : False := by
  simp only [offset, V2.cross, V2.sub] at *
  nlinarith

theorem farthest (h : QInv P G a b l) (hp0 : 0 < offset a b p) (hmax : ∀ v ∈ l, offset a b v ≤ offset a b p) (v : V2 K) (hv : v ∈ G) :
    offset a b v ≤ offset a b p := by
  by_cases h0 : 0 < offset a b v
  · exact hmax v (h.all v hv h0)
  · exact (not_lt.1 h0).trans hp0.le

theorem step_left (hP : UpWard P) (h : QInv P G a b l) (hp : p ∈ l) (hp0 : 0 < offset a b p) (hmax : ∀ v ∈ l, offset a b v ≤ offset a b p)
    {l1 : List (V2 K)} (hl1 : ∀ v ∈ l1, v ∈ l) (hl : ∀ v ∈ l, 0 < offset a b v → v = p ∨ v ∈ l1) : QInv P G a p l1 := by
  have hfar := farthest h hp0 hmax
  have hpG := h.sub p hp
  rcases h.cone with hn | ⟨da, db, h1, h2, h3, h4, h5, h6⟩
  · exact absurd hp0 (hn p hpG)
  · have hpa : p ≠ a := by
      rintro rfl
      simp [offset, V2.cross, V2.sub] at hp0
    have ke := h1 p hpG
    refine ⟨fun v hv => h.sub v (hl1 v hv), ?_, ?_, ?_⟩
    · intro v hv hr
      rcases hl v (h.all v hv (right_left h hp hp0 hv hr)) (right_left h hp hp0 hv hr) with rfl | hv
      · simp [offset, V2.cross, V2.sub] at hr
        nlinarith
      · exact hv
    · rcases h5 with h5 | h5
      · rw [between_dirs da (b.sub a) (p.sub a) h3.ne']
        have e : ((da.scale ((p.sub a).cross (b.sub a) / da.cross (b.sub a))).add ((b.sub a).scale (da.cross (p.sub a) / da.cross (b.sub a)))) =
            (((b.sub a).scale (da.cross (p.sub a) / da.cross (b.sub a))).add (da.scale ((p.sub a).cross (b.sub a) / da.cross (b.sub a)))) := by
          ext <;> simp only [V2.add, V2.scale] <;> ring
        rw [e]
        exact upward_comb hP h.up h5 (div_nonneg ke h3.le) (div_pos hp0 h3)
      · exact h5 p hpG hpa
    · rcases ke.eq_or_lt with h0 | hlt
      · left
        intro v hv hr
        have k := cross_three da (b.sub a) (p.sub a) (v.sub a)
        have kw := h1 v hv
        rw [offset_cross] at hp0 hr
        rw [cross_antisymm (p.sub a) (v.sub a), cross_antisymm (b.sub a) (p.sub a), ← h0] at k
        nlinarith [mul_pos h3 hr, mul_nonneg kw hp0.le]
      · right
        refine ⟨da, b.sub a, h1, ?_, hlt, hp0, h5, Or.inl h.up⟩
        intro v hv
        have := hfar v hv
        simp only [offset, V2.cross, V2.sub] at *
        linarith

theorem step_right (hP : UpWard P) (h : QInv P G a b l) (hp : p ∈ l) (hp0 : 0 < offset a b p) (hmax : ∀ v ∈ l, offset a b v ≤ offset a b p)
    {l1 l2 : List (V2 K)} (hl1 : ∀ v ∈ l1, v ∈ l) (hl : ∀ v ∈ l, 0 < offset a b v → v = p ∨ v ∈ l1) (hl2 : ∀ v ∈ l2, v ∈ l1)
    (hl' : ∀ v ∈ l1, ¬ 0 < offset a p v → v ∈ l2) : QInv P G p b l2 := by
  have hfar := farthest h hp0 hmax
  have hpG := h.sub p hp
  rcases h.cone with hn | ⟨da, db, h1, h2, h3, h4, h5, h6⟩
  · exact absurd hp0 (hn p hpG)
  · have hpb : p ≠ b := by
      rintro rfl
      simp only [offset, V2.cross, V2.sub] at hp0
      nlinarith
    have ke := h2 p hpG
    have e3 : offset a b p = (b.sub a).cross (b.sub p) := by simp only [offset, V2.cross, V2.sub]; ring
    have e4 : db.cross (p.sub b) = (b.sub p).cross db := by simp only [V2.cross, V2.sub]; ring
    rw [e4] at ke
    refine ⟨fun v hv => h.sub v (hl1 v (hl2 v hv)), ?_, ?_, ?_⟩
    · intro v hv hr
      rcases hl v (h.all v hv (right_right h hp hp0 hv hr)) (right_right h hp hp0 hv hr) with rfl | hv1
      · simp [offset, V2.cross, V2.sub] at hr
      · exact hl' v hv1 fun hn => not_both (hfar v hv) hn hr
    · rcases h6 with h6 | h6
      · rw [between_dirs (b.sub a) db (b.sub p) h4.ne']
        rw [e3] at hp0
        exact upward_comb hP h.up h6 (div_nonneg ke h4.le) (div_pos hp0 h4)
      · exact h6 p hpG hpb
    · rcases ke.eq_or_lt with h0 | hlt
      · left
        intro v hv hr
        have kw := h2 v hv
        have e1 : offset p b v = (v.sub b).cross (b.sub p) := by simp only [offset, V2.cross, V2.sub]; ring
        have k := cross_three db (b.sub a) (b.sub p) (v.sub b)
        rw [e1] at hr
        rw [e3] at hp0
        rw [cross_antisymm db (b.sub a), cross_antisymm (b.sub p) (v.sub b), cross_antisymm db (b.sub p), ← h0] at k
        nlinarith [mul_pos h4 hr, mul_nonneg kw hp0.le]
      · right
        refine ⟨b.sub a, db, ?_, h2, e3 ▸ hp0, hlt, Or.inl h.up, h6⟩
        intro v hv
        have := hfar v hv
        simp only [offset, V2.cross, V2.sub] at *
        linarith
end step

theorem pairsFrom_append (a p : V2 K) (r1 r2 : List (V2 K)) : pairsFrom a (r1 ++ p :: r2) = pairsFrom a (r1 ++ [p]) ++ pairsFrom p r2 := by
  induction r1 generalizing a with
  | nil => simp [pairsFrom]
  | cons x r1 ih => simp [pairsFrom, ih]

/-- A larger list has a larger hull. -/
theorem hull_subset {l l' : List (V2 K)} (h : ∀ v ∈ l, v ∈ l') {x : V2 K} (hx : Hull l x) : Hull l' x := by
  induction hx with
  | vert v hv => exact .vert _ (h v hv)
  | mix p q t _ _ h0 h1 ihp ihq => exact .mix _ _ _ ihp ihq h0 h1

/-- Quickhull between two vertexes: the points it returns are given points to the right of the line between the two, no point is to the right of
a side it returns, each side goes upward, and each point on the right is in the hull of the two vertexes and the points returned. -/
theorem qside_spec {P : V2 K → Prop} (hP : UpWard P) {G : List (V2 K)} {a b : V2 K} {l r : List (V2 K)} (hq : QSide a b l r)
    (h : QInv P G a b l) : (∀ v ∈ r, v ∈ l ∧ 0 < offset a b v) ∧ (∀ e ∈ pairsFrom a (r ++ [b]), NoneRight G e.1 e.2 ∧ P (e.2.sub e.1)) ∧
      ∀ v ∈ G, 0 < offset a b v → Hull (a :: (r ++ [b])) v := by
  induction hq with
  | none a b l hn =>
    refine ⟨by simp, ?_, ?_⟩
    · intro e he
      simp only [List.nil_append, pairsFrom, List.mem_singleton] at he
      subst he
      exact ⟨fun v hv h0 => hn v (h.all v hv h0) h0, h.up⟩
    · intro v hv h0
      exact absurd h0 (hn v (h.all v hv h0))
  | split a b l p l1 l2 r1 r2 hp hp0 hmax hl1 hl hl2 hl' _ _ ih1 ih2 =>
    obtain ⟨i1, i2, i3⟩ := ih1 (step_left hP h hp hp0 hmax hl1 hl)
    obtain ⟨j1, j2, j3⟩ := ih2 (step_right hP h hp hp0 hmax hl1 hl hl2 hl')
    refine ⟨?_, ?_, ?_⟩
    · intro v hv
      rcases List.mem_append.1 hv with hv | hv
      · have := i1 v hv
        exact ⟨hl1 v this.1, right_left h hp hp0 (h.sub v (hl1 v this.1)) this.2⟩
      · rcases List.mem_cons.1 hv with rfl | hv
        · exact ⟨hp, hp0⟩
        · have := j1 v hv
          exact ⟨hl1 v (hl2 v this.1), right_right h hp hp0 (h.sub v (hl1 v (hl2 v this.1))) this.2⟩
    · intro e he
      rw [List.append_assoc, List.cons_append, pairsFrom_append, List.mem_append] at he
      exact he.elim (i2 e) (j2 e)
    · intro v hv h0
      by_cases k1 : 0 < offset a p v
      · refine hull_subset ?_ (i3 v hv k1)
        intro x hx
        simp only [List.mem_cons, List.mem_append, List.mem_singleton, List.append_assoc, List.cons_append] at hx ⊢
        tauto
      · by_cases k2 : 0 < offset p b v
        · refine hull_subset ?_ (j3 v hv k2)
          intro x hx
          simp only [List.mem_cons, List.mem_append, List.mem_singleton, List.append_assoc, List.cons_append] at hx ⊢
          tauto
        · refine triangle_hull _ a p b v (.vert _ (by simp)) (.vert _ (by simp)) (.vert _ (by simp)) hp0 ?_ ?_ ?_
          · have := not_lt.1 k1
            simp only [offset, V2.cross, V2.sub] at *
            linarith
          · simp only [offset, V2.cross, V2.sub] at *
            linarith
          · have := not_lt.1 k2
            simp only [offset, V2.cross, V2.sub] at *
            linarith


theorem pairsFrom_last (b a : V2 K) (r : List (V2 K)) : pairsFrom b (r ++ [a]) = pairsFrom b r ++ [((b :: r).getLastD V2.zero, a)] := by
  induction r generalizing b with
  | nil => simp [pairsFrom]
  | cons x r ih =>
    simp only [List.cons_append, pairsFrom, ih, List.getLastD_cons]

/-- Along a chain of upward sides no vertex occurs twice. -/
theorem chain_up {P : V2 K → Prop} (hP : UpWard P) (l : List (V2 K)) : ∀ a, (∀ e ∈ pairsFrom a l, P (e.2.sub e.1)) →
    (∀ v ∈ l, P (v.sub a)) ∧ (a :: l).Nodup := by
  induction l with
  | nil => intro a h; simp
  | cons b l ih =>
    intro a h
    obtain ⟨h1, h2⟩ := ih b fun e he => h e (by simp [pairsFrom, he])
    have hab : P (b.sub a) := h (a, b) (by simp [pairsFrom])
    have hall : ∀ v ∈ b :: l, P (v.sub a) := by
      intro v hv
      rcases List.mem_cons.1 hv with rfl | hv
      · exact hab
      · have := hP.add _ _ (h1 v hv) hab
        have e : (v.sub b).add (b.sub a) = v.sub a := by ext <;> simp [V2.add, V2.sub]
        rwa [e] at this
    refine ⟨hall, List.nodup_cons.2 ⟨fun hm => ?_, h2⟩⟩
    have := hall a hm
    have e : a.sub a = V2.zero := by ext <;> simp [V2.sub, V2.zero]
    rw [e] at this
    exact hP.zero this

theorem lex_upward : UpWard (K := K) (fun d => LexLt V2.zero d) := by
  refine ⟨?_, ?_, lex_irrefl _⟩
  · rintro u v (h | ⟨h, h'⟩) (k | ⟨k, k'⟩) <;> simp only [LexLt, V2.zero, V2.add] at *
    · left; linarith
    · left; linarith
    · left; linarith
    · right; constructor <;> linarith
  · rintro u c (h | ⟨h, h'⟩) hc <;> simp only [LexLt, V2.zero, V2.scale] at *
    · left; positivity
    · right; exact ⟨by rw [← h]; ring, by positivity⟩

theorem lex_downward : UpWard (K := K) (fun d => LexLt d V2.zero) := by
  refine ⟨?_, ?_, lex_irrefl _⟩
  · rintro u v (h | ⟨h, h'⟩) (k | ⟨k, k'⟩) <;> simp only [LexLt, V2.zero, V2.add] at *
    · left; linarith
    · left; linarith
    · left; linarith
    · right; constructor <;> linarith
  · rintro u c (h | ⟨h, h'⟩) hc <;> simp only [LexLt, V2.zero, V2.scale] at *
    · left; nlinarith
    · right; exact ⟨by rw [h]; ring, by nlinarith⟩

theorem lex_sub (u v : V2 K) : LexLt V2.zero (v.sub u) ↔ LexLt u v := by
  simp only [LexLt, V2.zero, V2.sub, sub_pos]
  constructor <;> rintro (h | ⟨h, h'⟩)
  · exact Or.inl h
  · exact Or.inr ⟨by linarith, h'⟩
  · exact Or.inl h
  · exact Or.inr ⟨by linarith, h'⟩

theorem lex_sub' (u v : V2 K) : LexLt (v.sub u) V2.zero ↔ LexLt v u := by
  simp only [LexLt, V2.zero, V2.sub, sub_neg]
  constructor <;> rintro (h | ⟨h, h'⟩)
  · exact Or.inl h
  · exact Or.inr ⟨by linarith, h'⟩
  · exact Or.inl h
  · exact Or.inr ⟨by linarith, h'⟩

/-- Points that come between two others in the order and are on their line are between them. -/
theorem on_line_hull {l : List (V2 K)} {a b v : V2 K} (ha : a ∈ l) (hb : b ∈ l) (hab : LexLt a b) (h1 : ¬ LexLt v a) (h2 : ¬ LexLt b v)
    (h0 : offset a b v = 0) : Hull l v := by
  simp only [offset, V2.cross, V2.sub] at h0
  unfold LexLt at *
  push Not at h1 h2
  by_cases hx : a.x < b.x
  · have hp : 0 < b.x - a.x := by linarith
    have e : v = At a b ((v.x - a.x) / (b.x - a.x)) := by
      ext
      · simp only [At]
        field_simp
        ring
      · simp only [At]
        field_simp
        linarith
    rw [e]
    exact .mix _ _ _ (.vert _ ha) (.vert _ hb) (div_nonneg (by linarith [h1.1]) hp.le) ((div_le_one hp).2 (by linarith [h2.1]))
  · have hxe : a.x = b.x := by
      rcases hab with h | h
      · exact absurd h hx
      · exact h.1
    have hy : a.y < b.y := by
      rcases hab with h | h
      · exact absurd h hx
      · exact h.2
    have hvx : v.x = a.x := le_antisymm (by rw [hxe]; exact h2.1) h1.1
    have hp : 0 < b.y - a.y := by linarith
    have e : v = At a b ((v.y - a.y) / (b.y - a.y)) := by
      ext
      · simp only [At]
        rw [hxe, hvx, hxe]
        ring
      · simp only [At]
        field_simp
        ring
    rw [e]
    exact .mix _ _ _ (.vert _ ha) (.vert _ hb) (div_nonneg (by linarith [h1.2 hvx]) hp.le)
      ((div_le_one hp).2 (by linarith [h2.2 (by rw [hvx, hxe])]))

namespace Spec
/-- `hull` is a convex polygon around the points `m`: its vertexes are different points of `m`, going around it every point of `m` is on the left
of each side or on it, and every point of `m` is a mixture of its vertexes. -/
structure HullOf (m hull : List (V2 K)) : Prop where
  nonempty : hull ≠ []
  subset : ∀ v ∈ hull, v ∈ m
  nodup : hull.Nodup
  left : ∀ e ∈ pairsFrom (hull.getLastD V2.zero) hull, ∀ v ∈ m, 0 ≤ (e.2.sub e.1).cross (v.sub e.1)
  inside : ∀ v ∈ m, Hull hull v
end Spec

/-- `convexHull` with tolerance zero, on any vertexes, returns without an index out of range and leaves a convex hull of the vertexes, in
counter-clockwise order, at the front of the array. -/
theorem C52_hull (M : Mth K) (m : List (V2 K)) (hm : m ≠ []) : ∃ hull, hullVerts M m = some hull ∧ HullOf m hull := by
  obtain ⟨hull, e, h | h⟩ := convexHull_spec M m hm
  · obtain ⟨a, rfl, ha, hall⟩ := h
    refine ⟨_, e, by simp, by simpa using ha, by simp, ?_, ?_⟩
    · intro e he v hv
      simp only [List.getLastD_cons, List.getLastD_nil, pairsFrom, List.mem_singleton] at he
      rw [he, hall v hv]
      simp [V2.cross, V2.sub]
    · intro v hv
      rw [hall v hv]
      exact .vert _ (by simp)
  · obtain ⟨a, b, vs, good, bad, r1, r2, rfl, hp, hab, hlex, hpart, q1, q2⟩ := h
    refine ⟨_, e, ?_⟩
    have hmem : ∀ v, v ∈ m ↔ v = a ∨ v = b ∨ v ∈ vs := fun v => by
      rw [← hp.mem_iff]
      simp
    have haa : offset a b a = 0 := by simp [offset, V2.cross, V2.sub]
    have hbb : offset a b b = 0 := by simp only [offset, V2.cross, V2.sub]; ring
    have hrev : ∀ v, offset b a v = - offset a b v := fun v => by simp only [offset, V2.cross, V2.sub]; ring
    have hxle : ∀ v ∈ m, a.x ≤ v.x ∧ v.x ≤ b.x := fun v hv => by
      have := hlex v hv
      unfold LexLt at this
      push Not at this
      exact ⟨this.1.1, this.2.1⟩
    have hxab : ¬ a.x < b.x → ∀ v ∈ m, offset a b v = 0 := by
      intro hn v hv
      have h1 := hxle v hv
      have h2 : a.x ≤ b.x := h1.1.trans h1.2
      have h3 : a.x = b.x := le_antisymm h2 (not_lt.1 hn)
      have h4 : v.x = a.x := le_antisymm (by rw [h3]; exact h1.2) h1.1
      simp only [offset, V2.cross, V2.sub, h4, h3]
      ring
    have hbadsub : ∀ v ∈ bad, v ∈ vs := fun v hv => hpart.perm.mem_iff.1 (by simp [hv])
    have lexab : ∀ v ∈ m, v ≠ a → LexLt a v := fun v hv hne => by
      by_contra hn
      exact hne (lex_tri (hlex v hv).1 hn)
    have lexba : ∀ v ∈ m, v ≠ b → LexLt v b := fun v hv hne => by
      by_contra hn
      exact hne (lex_tri hn (hlex v hv).2)
    have inv1 : QInv (fun d => LexLt V2.zero d) m a b vs := by
      refine ⟨fun v hv => (hmem v).2 (by simp [hv]), ?_, (lex_sub _ _).2 hab, ?_⟩
      · intro v hv h0
        rcases (hmem v).1 hv with rfl | rfl | h
        · exact absurd h0 (by rw [haa]; exact lt_irrefl _)
        · exact absurd h0 (by rw [hbb]; exact lt_irrefl _)
        · exact h
      · by_cases hx : a.x < b.x
        · right
          refine ⟨⟨0, -1⟩, ⟨0, 1⟩, ?_, ?_, ?_, ?_, Or.inr fun v hv hne => (lex_sub _ _).2 (lexab v hv hne),
            Or.inr fun v hv hne => (lex_sub _ _).2 (lexba v hv hne)⟩
          · intro v hv
            simp only [V2.cross, V2.sub]
            linarith [hxle v hv]
          · intro v hv
            simp only [V2.cross, V2.sub]
            linarith [hxle v hv]
          · simp only [V2.cross, V2.sub]
            linarith
          · simp only [V2.cross, V2.sub]
            linarith
        · left
          intro v hv
          rw [hxab hx v hv]
          exact lt_irrefl _
    have inv2 : QInv (fun d => LexLt d V2.zero) m b a bad := by
      refine ⟨fun v hv => (hmem v).2 (by simp [hbadsub v hv]), ?_, (lex_sub' _ _).2 hab, ?_⟩
      · intro v hv h0
        rw [hrev] at h0
        rcases (hmem v).1 hv with rfl | rfl | h
        · exact absurd h0 (by rw [haa]; simp)
        · exact absurd h0 (by rw [hbb]; simp)
        · rcases List.mem_append.1 (hpart.perm.mem_iff.2 h) with hg | hg
          · have := hpart.accepted v hg
            linarith
          · exact hg
      · by_cases hx : a.x < b.x
        · right
          refine ⟨⟨0, 1⟩, ⟨0, -1⟩, ?_, ?_, ?_, ?_, Or.inr fun v hv hne => (lex_sub' _ _).2 (lexba v hv hne),
            Or.inr fun v hv hne => (lex_sub' _ _).2 (lexab v hv hne)⟩
          · intro v hv
            simp only [V2.cross, V2.sub]
            linarith [hxle v hv]
          · intro v hv
            simp only [V2.cross, V2.sub]
            linarith [hxle v hv]
          · simp only [V2.cross, V2.sub]
            linarith
          · simp only [V2.cross, V2.sub]
            linarith
        · left
          intro v hv
          rw [hrev, hxab hx v hv]
          simp
    obtain ⟨i1, i2, i3⟩ := qside_spec lex_upward q1 inv1
    obtain ⟨j1, j2, j3⟩ := qside_spec lex_downward q2 inv2
    have n1 := (chain_up lex_upward _ a fun e he => (i2 e he).2).2
    have n2 := (chain_up lex_downward _ b fun e he => (j2 e he).2).2
    have hdis : ∀ x ∈ r1, x ∉ r2 := by
      intro x h1 h2
      have k1 := (i1 x h1).2
      have k2 := (j1 x h2).2
      rw [hrev] at k2
      linarith
    refine ⟨by simp, ?_, ?_, ?_, ?_⟩
    · intro v hv
      simp only [List.mem_cons, List.mem_append] at hv
      rcases hv with rfl | hv | rfl | hv
      · exact (hmem _).2 (by simp)
      · exact (hmem _).2 (by simp [(i1 v hv).1])
      · exact (hmem _).2 (by simp)
      · exact (hmem _).2 (by simp [hbadsub v (j1 v hv).1])
    · simp only [List.nodup_cons, List.nodup_append, List.mem_cons, List.mem_append, List.mem_singleton, not_or] at n1 n2 ⊢
      refine ⟨⟨n1.1.1, n1.1.2.1, fun h => ?_⟩, n1.2.1, ⟨n2.1.1, n2.2.1⟩, ?_⟩
      · exact n2.2.2.2 a h a (by simp) rfl
      · intro x hx y hy hxy
        rcases hy with rfl | hy
        · exact n1.2.2.2 x hx _ (by simp) hxy
        · exact hdis x hx (hxy ▸ hy)
    · intro e he v hv
      have hlast : (a :: (r1 ++ b :: r2)).getLastD V2.zero = (b :: r2).getLastD V2.zero := by
        rw [List.getLastD_eq_getLast?, List.getLastD_eq_getLast?, ← List.cons_append, List.getLast?_append_of_ne_nil _ (by simp)]
      rw [hlast, pairsFrom, pairsFrom_append, List.mem_cons, List.mem_append] at he
      have key : NoneRight m e.1 e.2 := by
        rcases he with he | he | he
        · exact (j2 e (by rw [pairsFrom_last, he]; simp)).1
        · exact (i2 e he).1
        · exact (j2 e (by rw [pairsFrom_last]; simp [he])).1
      have := not_lt.1 (key v hv)
      simp only [offset, V2.cross, V2.sub] at *
      linarith
    · intro v hv
      rcases lt_trichotomy (offset a b v) 0 with h0 | h0 | h0
      · refine hull_subset ?_ (j3 v hv (by rw [hrev]; linarith))
        intro x hx
        simp only [List.mem_cons, List.mem_append, List.mem_singleton] at hx ⊢
        tauto
      · exact on_line_hull (by simp) (by simp) hab (hlex v hv).1 (hlex v hv).2 h0
      · refine hull_subset ?_ (i3 v hv h0)
        intro x hx
        simp only [List.mem_cons, List.mem_append, List.mem_singleton] at hx ⊢
        tauto


/-- The hull has the same mixtures as the vertexes: nothing is lost and nothing is added. -/
theorem C52_same_points (M : Mth K) (m : List (V2 K)) (hull : List (V2 K)) (h : hullVerts M m = some hull) (x : V2 K) :
    Hull hull x ↔ Hull m x := by
  have hm : m ≠ [] := by
    rintro rfl
    simp [hullVerts, convexHull] at h
  obtain ⟨hull', e, hh⟩ := C52_hull M m hm
  rw [h] at e
  cases e
  refine ⟨hull_subset hh.subset, fun hx => ?_⟩
  induction hx with
  | vert v hv => exact hh.inside v hv
  | mix p q t _ _ h0 h1 ihp ihq => exact .mix _ _ _ ihp ihq h0 h1

/-- A mixture of two points is on their line. -/
theorem hull_pair {a b x : V2 K} (h : Hull [a, b] x) : ∃ t, x = At a b t := by
  induction h with
  | vert v hv =>
    simp only [List.mem_cons, List.not_mem_nil, or_false] at hv
    rcases hv with rfl | rfl
    · exact ⟨0, by ext <;> simp [At]⟩
    · exact ⟨1, by ext <;> simp [At]⟩
  | mix p q t _ _ h0 h1 ihp ihq =>
    obtain ⟨s, rfl⟩ := ihp
    obtain ⟨u, rfl⟩ := ihq
    exact ⟨s + t * (u - s), by ext <;> simp only [At] <;> ring⟩

/-- If no three different vertexes are in line and there are three of them, the hull is a strictly convex polygon, as the polygon shapes need. -/
theorem C52_strict (M : Mth K) (m hull : List (V2 K)) (h : hullVerts M m = some hull)
    (hline : ∀ u ∈ m, ∀ v ∈ m, ∀ w ∈ m, u ≠ v → v ≠ w → u ≠ w → offset u v w ≠ 0)
    (hthree : ∃ u ∈ m, ∃ v ∈ m, ∃ w ∈ m, u ≠ v ∧ v ≠ w ∧ u ≠ w) : ConvexCCW hull := by
  have hm : m ≠ [] := by
    rintro rfl
    simp [hullVerts, convexHull] at h
  obtain ⟨hull', e, hh⟩ := C52_hull M m hm
  rw [h] at e
  cases e
  have hpm : ∀ (l : List (V2 K)) a, ∀ e ∈ pairsFrom a l, e.1 ∈ a :: l ∧ e.2 ∈ l ∧ ((a :: l).Nodup → e.1 ≠ e.2) := by
    intro l
    induction l with
    | nil => intro a e he; simp [pairsFrom] at he
    | cons b l ih =>
      intro a e he
      rcases List.mem_cons.1 he with rfl | he
      · refine ⟨by simp, by simp, fun hn => ?_⟩
        simp only [List.nodup_cons, List.mem_cons, not_or] at hn
        exact hn.1.1
      · obtain ⟨h1, h2, h3⟩ := ih b e he
        exact ⟨List.mem_cons_of_mem _ h1, List.mem_cons_of_mem _ h2, fun hn => h3 (List.nodup_cons.1 hn).2⟩
  have hlen : 3 ≤ hull.length := by
    obtain ⟨u, hu, v, hv, w, hw, h1, h2, h3⟩ := hthree
    by_contra hlt
    have hin := hh.inside
    have hne := hh.nonempty
    obtain ⟨a, b, hab⟩ : ∃ a b, ∀ x, Hull hull x → Hull [a, b] x := by
      match hull, hne, hlt with
      | [a], _, _ => exact ⟨a, a, fun x hx => hull_subset (by simp) hx⟩
      | [a, b], _, _ => exact ⟨a, b, fun x hx => hx⟩
      | _ :: _ :: _ :: _, _, hlt => exact absurd hlt (by simp)
    obtain ⟨s, es⟩ := hull_pair (hab u (hin u hu))
    obtain ⟨t, et⟩ := hull_pair (hab v (hin v hv))
    obtain ⟨r, er⟩ := hull_pair (hab w (hin w hw))
    apply hline u hu v hv w hw h1 h2 h3
    rw [es, et, er]
    simp only [offset, At, V2.cross, V2.sub]
    ring
  refine ⟨hlen, hh.nodup, ?_⟩
  intro e he
  have hmem : e.1 ∈ hull ∧ e.2 ∈ hull ∧ e.1 ≠ e.2 := by
    have hnd := hh.nodup
    match hull, hlen, hnd, he with
    | a :: b :: l, hlen, hnd, he =>
      rw [pairsFrom, List.mem_cons] at he
      rcases he with rfl | he
      · have hl : (a :: b :: l).getLastD V2.zero = (b :: l).getLast (by simp) := by
          rw [List.getLastD_eq_getLast?, List.getLast?_eq_getLast_of_ne_nil (by simp)]
          simp
        refine ⟨?_, by simp, ?_⟩
        · show (a :: b :: l).getLastD V2.zero ∈ _
          rw [hl]
          exact List.mem_cons_of_mem _ (List.getLast_mem _)
        · show (a :: b :: l).getLastD V2.zero ≠ a
          rw [hl]
          intro h
          exact (List.nodup_cons.1 hnd).1 (h ▸ List.getLast_mem _)
      · obtain ⟨h1, h2, h3⟩ := hpm _ _ e he
        exact ⟨h1, List.mem_cons_of_mem _ h2, h3 hnd⟩
  refine ⟨hmem.2.2, fun w hw => ?_⟩
  by_cases w1 : w = e.1
  · exact Or.inl w1
  · by_cases w2 : w = e.2
    · exact Or.inr (Or.inl w2)
    · right; right
      refine lt_of_le_of_ne (hh.left e he w (hh.subset w hw)) fun h0 => ?_
      apply hline e.1 (hh.subset _ hmem.1) e.2 (hh.subset _ hmem.2.1) w (hh.subset w hw) hmem.2.2 (fun h => w2 h.symm) (fun h => w1 h.symm)
      simp only [offset, V2.cross, V2.sub] at *
      linarith

/-- The hull may keep a vertex on one of its sides: of points equally far from a line any may be taken first. Here `(5, -5)` is on the side from
`(3, -5)` to `(7, -5)`. -/
theorem C52_collinear : hullVerts gridMth [⟨0, 0⟩, ⟨10, 0⟩, ⟨5, -5⟩, ⟨3, -5⟩, ⟨7, -5⟩] =
    some [⟨0, 0⟩, ⟨3, -5⟩, ⟨5, -5⟩, ⟨7, -5⟩, ⟨10, 0⟩] := by decide +kernel

/-- Five points, one of them inside: the hull is the square of the others, and the theorems above apply to it. -/
example : hullVerts gridMth [⟨2, 1⟩, ⟨4, 0⟩, ⟨0, 0⟩, ⟨4, 4⟩, ⟨0, 4⟩] = some [⟨0, 0⟩, ⟨4, 0⟩, ⟨4, 4⟩, ⟨0, 4⟩] := by decide +kernel

/-- Points in general position for `C52_strict`. -/
example : ConvexCCW (K := ℚ) [⟨0, 0⟩, ⟨4, 0⟩, ⟨0, 4⟩] :=
  C52_strict gridMth [⟨1, 1⟩, ⟨4, 0⟩, ⟨0, 0⟩, ⟨0, 4⟩] _ (by decide +kernel) (by decide +kernel) (by decide +kernel)

end Cm
