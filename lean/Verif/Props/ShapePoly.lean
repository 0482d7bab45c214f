import Verif.Props.ShapePoint
/-! # C46 for polygons: point queries on convex polygons of any number of vertexes -/
set_option linter.unusedSectionVars false
set_option linter.unusedSimpArgs false

namespace Cm
open Spec
variable {K : Type} [Field K] [LinearOrder K] [IsStrictOrderedRing K]

namespace Spec

/-- The sides of a polygon given by its planes, each as (previous vertex, plane), starting from a previous vertex `v`. -/
def sidesFrom : V2 K → List (Plane K) → List (V2 K × Plane K)
  | _, [] => []
  | v, pl :: l => (v, pl) :: sidesFrom pl.v0 l

/-- The sides of a closed polygon. -/
def sides (l : List (Plane K)) : List (V2 K × Plane K) := sidesFrom (l.getLastD ⟨V2.zero, V2.zero⟩).v0 l

/-- The planes describe a strictly convex counter-clockwise polygon with outward normals: at least three vertexes, all
different; the normal of a side is a positive multiple of its direction turned clockwise; every other vertex lies strictly
on the inner side. -/
def Outline (l : List (Plane K)) : Prop :=
  3 ≤ l.length ∧ (l.map Plane.v0).Nodup ∧
  ∀ s ∈ sides l, (∃ c, 0 < c ∧ s.2.n = ((s.2.v0.sub s.1).rperp).scale c) ∧
    ∀ w ∈ l, w.v0 = s.1 ∨ w.v0 = s.2.v0 ∨ s.2.n.dot (w.v0.sub s.2.v0) < 0

/-- The boundary of a polygon without rounding. -/
def Boundary (l : List (Plane K)) (x : V2 K) : Prop := ∃ s ∈ sides l, OnSegment s.1 s.2.v0 x

/-- On the inner side of every side. -/
def Inside (l : List (Plane K)) (x : V2 K) : Prop := ∀ s ∈ sides l, s.2.n.dot (x.sub s.2.v0) ≤ 0

end Spec

/-! ## A convex polygon is the intersection of its half planes -/

theorem mem_sidesFrom_snd {v : V2 K} {l : List (Plane K)} {s : V2 K × Plane K} (h : s ∈ sidesFrom v l) : s.2 ∈ l := by
  induction l generalizing v with
  | nil => simp [sidesFrom] at h
  | cons a l ih =>
    simp only [sidesFrom, List.mem_cons] at h
    rcases h with rfl | h
    · simp
    · exact List.mem_cons_of_mem _ (ih h)

theorem mem_sidesFrom_fst {v : V2 K} {l : List (Plane K)} {s : V2 K × Plane K} (h : s ∈ sidesFrom v l) :
    s.1 = v ∨ ∃ w ∈ l, s.1 = w.v0 := by
  induction l generalizing v with
  | nil => simp [sidesFrom] at h
  | cons a l ih =>
    simp only [sidesFrom, List.mem_cons] at h
    rcases h with rfl | h
    · exact Or.inl rfl
    · rcases ih h with h | ⟨w, hw, h⟩
      · exact Or.inr ⟨a, by simp, h⟩
      · exact Or.inr ⟨w, List.mem_cons_of_mem _ hw, h⟩

theorem mem_sides_fst {l : List (Plane K)} {s : V2 K × Plane K} (h : s ∈ sides l) : ∃ w ∈ l, s.1 = w.v0 := by
  rcases mem_sidesFrom_fst h with h' | h'
  · have hne : l ≠ [] := by rintro rfl; simp [sides, sidesFrom] at h
    refine ⟨l.getLast hne, List.getLast_mem hne, ?_⟩
    rw [h', List.getLastD_eq_getLast?, List.getLast?_eq_some_getLast hne]; rfl
  · exact h'

theorem side_hull {l : List (Plane K)} {s : V2 K × Plane K} (h : s ∈ sides l) (x : V2 K) (hx : OnSegment s.1 s.2.v0 x) :
    Hull (l.map Plane.v0) x := by
  obtain ⟨t, h0, h1, rfl⟩ := hx
  obtain ⟨w, hw, e⟩ := mem_sides_fst h
  rw [e]
  exact .mix _ _ _ (.vert _ (List.mem_map_of_mem hw)) (.vert _ (List.mem_map_of_mem (mem_sidesFrom_snd h))) h0 h1

/-- The hull lies on the inner side of every side. -/
theorem hull_inside {l : List (Plane K)} (ho : Outline l) (x : V2 K) (hx : Hull (l.map Plane.v0) x) : Inside l x := by
  intro s hs
  obtain ⟨⟨c, hc, hn⟩, hw⟩ := ho.2.2 s hs
  induction hx with
  | vert v hv =>
    obtain ⟨w, hwl, rfl⟩ := List.mem_map.1 hv
    rcases hw w hwl with h | h | h
    · rw [h, hn]
      apply le_of_eq
      simp only [V2.dot, V2.sub, V2.scale, V2.rperp]; ring
    · rw [h]
      simp [V2.dot, V2.sub]
    · exact le_of_lt h
  | mix p q t _ _ h0 h1 ihp ihq =>
    have : s.2.n.dot ((At p q t).sub s.2.v0) = (1 - t) * s.2.n.dot (p.sub s.2.v0) + t * s.2.n.dot (q.sub s.2.v0) := by
      simp only [V2.dot, V2.sub, At]; ring
    rw [this]
    nlinarith

theorem zip_sign {α : Type} (f : α → K) : ∀ (cur : α) (rest : List α) (hne : rest ≠ []), 0 ≤ f cur → f (rest.getLast hne) ≤ 0 →
    ∃ x y, (x, y) ∈ (cur :: rest).zip rest ∧ 0 ≤ f x ∧ f y ≤ 0 := by
  intro cur rest
  induction rest generalizing cur with
  | nil => intro hne; exact absurd rfl hne
  | cons y r ih =>
    intro hne h0 h1
    rcases le_total (f y) 0 with hy | hy
    · exact ⟨cur, y, by simp, h0, hy⟩
    · rcases r with _ | ⟨z, r⟩
      · exact ⟨cur, y, by simp, h0, h1⟩
      · obtain ⟨a, b, hm, ha, hb⟩ := ih y (by simp) hy (by simpa using h1)
        exact ⟨a, b, by rw [List.zip_cons_cons]; exact List.mem_cons_of_mem _ hm, ha, hb⟩

theorem mem_zip_sidesFrom : ∀ (cur : Plane K) (rest : List (Plane K)) (x y : Plane K), (x, y) ∈ (cur :: rest).zip rest →
    (x.v0, y) ∈ sidesFrom cur.v0 rest := by
  intro cur rest
  induction rest generalizing cur with
  | nil => intro x y h; simp at h
  | cons a r ih =>
    intro x y h
    rw [List.zip_cons_cons, List.mem_cons] at h
    simp only [sidesFrom, List.mem_cons]
    rcases h with h | h
    · left; rw [Prod.mk.injEq] at h; rw [h.1, h.2]
    · right; exact ih a x y h

/-- A point in a triangle is in the hull of its corners. -/
theorem triangle_hull (l : List (V2 K)) (o x y p : V2 K) (ho : Hull l o) (hx : Hull l x) (hy : Hull l y)
    (hA : 0 < (x.sub o).cross (y.sub o)) (h1 : 0 ≤ (x.sub o).cross (p.sub o)) (h2 : (y.sub o).cross (p.sub o) ≤ 0)
    (h3 : 0 ≤ (y.sub x).cross (p.sub x)) : Hull l p := by
  set A := (x.sub o).cross (y.sub o) with hAd
  set γ := (x.sub o).cross (p.sub o) / A with hγ
  set β := -((y.sub o).cross (p.sub o)) / A with hβ
  have hγ0 : 0 ≤ γ := div_nonneg h1 (le_of_lt hA)
  have hβ0 : 0 ≤ β := div_nonneg (by linarith) (le_of_lt hA)
  have hAne : A ≠ 0 := ne_of_gt hA
  have hsum : 1 - β - γ = (y.sub x).cross (p.sub x) / A := by
    rw [hβ, hγ, eq_div_iff hAne, sub_mul, sub_mul, div_mul_cancel₀ _ hAne, div_mul_cancel₀ _ hAne, hAd]
    simp only [V2.cross, V2.sub]; ring
  have hle : β + γ ≤ 1 := by
    have : 0 ≤ 1 - β - γ := by rw [hsum]; exact div_nonneg h3 (le_of_lt hA)
    linarith
  have hpx : p.x = o.x + β * (x.x - o.x) + γ * (y.x - o.x) := by
    have : A * p.x = A * (o.x + β * (x.x - o.x) + γ * (y.x - o.x)) := by
      have e1 : A * β = -((y.sub o).cross (p.sub o)) := by rw [hβ, mul_div_cancel₀ _ hAne]
      have e2 : A * γ = (x.sub o).cross (p.sub o) := by rw [hγ, mul_div_cancel₀ _ hAne]
      have : A * (o.x + β * (x.x - o.x) + γ * (y.x - o.x)) = A * o.x + (A * β) * (x.x - o.x) + (A * γ) * (y.x - o.x) := by ring
      rw [this, e1, e2, hAd]
      simp only [V2.cross, V2.sub]; ring
    exact mul_left_cancel₀ hAne this
  have hpy : p.y = o.y + β * (x.y - o.y) + γ * (y.y - o.y) := by
    have : A * p.y = A * (o.y + β * (x.y - o.y) + γ * (y.y - o.y)) := by
      have e1 : A * β = -((y.sub o).cross (p.sub o)) := by rw [hβ, mul_div_cancel₀ _ hAne]
      have e2 : A * γ = (x.sub o).cross (p.sub o) := by rw [hγ, mul_div_cancel₀ _ hAne]
      have : A * (o.y + β * (x.y - o.y) + γ * (y.y - o.y)) = A * o.y + (A * β) * (x.y - o.y) + (A * γ) * (y.y - o.y) := by ring
      rw [this, e1, e2, hAd]
      simp only [V2.cross, V2.sub]; ring
    exact mul_left_cancel₀ hAne this
  rcases (add_nonneg hβ0 hγ0).lt_or_eq with hpos | h0
  · have hz : Hull l (At x y (γ / (β + γ))) :=
      .mix _ _ _ hx hy (div_nonneg hγ0 (le_of_lt hpos)) ((div_le_one hpos).2 (by linarith))
    have : p = At o (At x y (γ / (β + γ))) (β + γ) := by
      have hs : β + γ ≠ 0 := ne_of_gt hpos
      simp only [At]
      ext
      · simp only [hpx]; field_simp; ring
      · simp only [hpy]; field_simp; ring
    rw [this]
    exact .mix _ _ _ ho hz (le_of_lt hpos) hle
  · have hb : β = 0 := by linarith
    have hg : γ = 0 := by linarith
    have : p = o := by
      ext
      · rw [hpx, hb, hg]; ring
      · rw [hpy, hb, hg]; ring
    rw [this]; exact ho

/-- A point on the inner side of every side belongs to the polygon. -/
theorem inside_hull {l : List (Plane K)} (ho : Outline l) (p : V2 K) (hp : Inside l p) : Hull (l.map Plane.v0) p := by
  obtain ⟨hlen, hnd, hs⟩ := ho
  obtain ⟨a, b, c, r, rfl⟩ : ∃ a b c r, l = a :: b :: c :: r := by
    rcases l with _ | ⟨a, _ | ⟨b, _ | ⟨c, r⟩⟩⟩
    · simp at hlen
    · simp at hlen
    · simp at hlen
    · exact ⟨a, b, c, r, rfl⟩
  have hull : ∀ w ∈ a :: b :: c :: r, Hull ((a :: b :: c :: r).map Plane.v0) w.v0 := fun w hw => .vert _ (List.mem_map_of_mem hw)
  -- the side from `q` to `s` as a cross product
  have hcross : ∀ s ∈ sides (a :: b :: c :: r), 0 ≤ (s.2.v0.sub s.1).cross (p.sub s.2.v0) := by
    intro s hsm
    obtain ⟨⟨k, hk, hn⟩, _⟩ := hs s hsm
    have := hp s hsm
    rw [hn] at this
    have e : (((s.2.v0.sub s.1).rperp).scale k).dot (p.sub s.2.v0) = -(k * (s.2.v0.sub s.1).cross (p.sub s.2.v0)) := by
      simp only [V2.dot, V2.scale, V2.rperp, V2.cross, V2.sub]; ring
    rw [e] at this
    have : 0 ≤ k * (s.2.v0.sub s.1).cross (p.sub s.2.v0) := by linarith
    exact nonneg_of_mul_nonneg_right this hk
  have hsides : sides (a :: b :: c :: r) =
      (((c :: r).getLast (by simp)).v0, a) :: (a.v0, b) :: sidesFrom b.v0 (c :: r) := by
    simp only [sides, sidesFrom, List.getLastD_eq_getLast?, List.cons.injEq, Prod.mk.injEq, and_true]
    rw [List.getLast?_eq_some_getLast (by simp)]
    simp [List.getLast_cons]
  let f : Plane K → K := fun w => (w.v0.sub a.v0).cross (p.sub a.v0)
  have hb : 0 ≤ f b := by
    have := hcross (a.v0, b) (by rw [hsides]; simp)
    dsimp only at this
    have e : f b = (b.v0.sub a.v0).cross (p.sub b.v0) := by simp only [f, V2.cross, V2.sub]; ring
    rw [e]; exact this
  have hl : f ((c :: r).getLast (by simp)) ≤ 0 := by
    have := hcross _ (by rw [hsides]; exact List.mem_cons_self ..)
    dsimp only at this
    have e : f ((c :: r).getLast (by simp)) = -((a.v0.sub ((c :: r).getLast (by simp)).v0).cross (p.sub a.v0)) := by
      simp only [f, V2.cross, V2.sub]; ring
    rw [e]; linarith
  obtain ⟨x, y, hm, hx, hy⟩ := zip_sign f b (c :: r) (by simp) hb hl
  have hside := mem_zip_sidesFrom b (c :: r) x y hm
  have hside' : (x.v0, y) ∈ sides (a :: b :: c :: r) := by
    rw [hsides]; exact List.mem_cons_of_mem _ (List.mem_cons_of_mem _ hside)
  have hxm : x ∈ b :: c :: r := (List.of_mem_zip hm).1
  have hym : y ∈ c :: r := (List.of_mem_zip hm).2
  have hax : a.v0 ≠ x.v0 := by
    intro e
    rw [List.map_cons, List.nodup_cons] at hnd
    exact hnd.1 (e ▸ List.mem_map_of_mem hxm)
  have hay : a.v0 ≠ y.v0 := by
    intro e
    rw [List.map_cons, List.nodup_cons] at hnd
    exact hnd.1 (e ▸ List.mem_map_of_mem (List.mem_cons_of_mem _ hym))
  have hA : 0 < (x.v0.sub a.v0).cross (y.v0.sub a.v0) := by
    obtain ⟨⟨k, hk, hn⟩, hw⟩ := hs _ hside'
    rcases hw a (by simp) with h | h | h
    · exact absurd h hax
    · exact absurd h hay
    · dsimp only at hn h
      rw [hn] at h
      have e : (((y.v0.sub x.v0).rperp).scale k).dot (a.v0.sub y.v0) = -(k * (x.v0.sub a.v0).cross (y.v0.sub a.v0)) := by
        simp only [V2.dot, V2.scale, V2.rperp, V2.cross, V2.sub]; ring
      rw [e] at h
      have : 0 < k * (x.v0.sub a.v0).cross (y.v0.sub a.v0) := by linarith
      exact (mul_pos_iff_of_pos_left hk).1 this
  refine triangle_hull _ a.v0 x.v0 y.v0 p (hull a (by simp)) (hull x (List.mem_cons_of_mem _ hxm))
    (hull y (List.mem_cons_of_mem _ (List.mem_cons_of_mem _ hym))) hA hx hy ?_
  have := hcross _ hside'
  dsimp only at this
  have e : (y.v0.sub x.v0).cross (p.sub x.v0) = (y.v0.sub x.v0).cross (p.sub y.v0) := by
    simp only [V2.cross, V2.sub]; ring
  rw [e]; exact this

theorem hull_iff_inside {l : List (Plane K)} (ho : Outline l) (p : V2 K) : Hull (l.map Plane.v0) p ↔ Inside l p :=
  ⟨hull_inside ho p, inside_hull ho p⟩

/-- A point of the polygon on the line of a side is on that side. -/
theorem hull_on_side {l : List (Plane K)} (ho : Outline l) (s : V2 K × Plane K) (hs : s ∈ sides l) (x : V2 K)
    (hx : Hull (l.map Plane.v0) x) (h0 : s.2.n.dot (x.sub s.2.v0) = 0) : OnSegment s.1 s.2.v0 x := by
  have hx' := hx
  induction hx with
  | vert v hv =>
    obtain ⟨w, hwl, rfl⟩ := List.mem_map.1 hv
    rcases (ho.2.2 s hs).2 w hwl with h | h | h
    · exact ⟨0, le_refl _, zero_le_one, by rw [h]; simp [At]⟩
    · exact ⟨1, zero_le_one, le_refl _, by rw [h]; simp [At]⟩
    · rw [h0] at h; exact absurd h (lt_irrefl _)
  | mix p q t hp hq t0 t1 ihp ihq =>
    have e : s.2.n.dot ((At p q t).sub s.2.v0) = (1 - t) * s.2.n.dot (p.sub s.2.v0) + t * s.2.n.dot (q.sub s.2.v0) := by
      simp only [V2.dot, V2.sub, At]; ring
    rw [e] at h0
    have gp := hull_inside ho p hp s hs
    have gq := hull_inside ho q hq s hs
    rcases t0.lt_or_eq with ht0 | rfl
    · rcases t1.lt_or_eq with ht1 | rfl
      · have e1 : (1 - t) * s.2.n.dot (p.sub s.2.v0) ≤ 0 := mul_nonpos_of_nonneg_of_nonpos (by linarith) gp
        have e2 : t * s.2.n.dot (q.sub s.2.v0) ≤ 0 := mul_nonpos_of_nonneg_of_nonpos t0 gq
        have z1 : s.2.n.dot (p.sub s.2.v0) = 0 := by
          have : (1 - t) * s.2.n.dot (p.sub s.2.v0) = 0 := by linarith
          exact (mul_eq_zero.1 this).resolve_left (by intro h; linarith)
        have z2 : s.2.n.dot (q.sub s.2.v0) = 0 := by
          have : t * s.2.n.dot (q.sub s.2.v0) = 0 := by linarith
          exact (mul_eq_zero.1 this).resolve_left (ne_of_gt ht0)
        obtain ⟨u, u0, u1, rfl⟩ := ihp z1 hp
        obtain ⟨v, v0, v1, rfl⟩ := ihq z2 hq
        refine ⟨u + t * (v - u), ?_, ?_, ?_⟩
        · nlinarith
        · nlinarith
        · simp only [At]; ext <;> simp only <;> ring
      · have z2 : s.2.n.dot (q.sub s.2.v0) = 0 := by linarith
        have : At p q 1 = q := by simp [At]
        rw [this]; exact ihq z2 hq
    · have z1 : s.2.n.dot (p.sub s.2.v0) = 0 := by linarith
      have : At p q 0 = p := by simp [At]
      rw [this]; exact ihp z1 hp

/-- The least of finitely many numbers. -/
theorem exists_least {α : Type} (f : α → K) (l : List α) (h : l ≠ []) : ∃ a ∈ l, ∀ b ∈ l, f a ≤ f b := by
  induction l with
  | nil => exact absurd rfl h
  | cons a l ih =>
    rcases l with _ | ⟨b, l⟩
    · exact ⟨a, by simp, by simp⟩
    · obtain ⟨m, hm, hmin⟩ := ih (by simp)
      rcases le_total (f a) (f m) with h' | h'
      · refine ⟨a, by simp, ?_⟩
        intro c hc
        rcases List.mem_cons.1 hc with rfl | hc
        · exact le_refl _
        · exact h'.trans (hmin c hc)
      · refine ⟨m, List.mem_cons_of_mem _ hm, ?_⟩
        intro c hc
        rcases List.mem_cons.1 hc with rfl | hc
        · exact h'
        · exact hmin c hc

open Classical in
/-- From a point outside, some point of the boundary is at least as near as any given point of the polygon. -/
theorem boundary_nearer {M : Mth K} (hM : M.Lawful) {l : List (Plane K)} (ho : Outline l) (p x : V2 K)
    (hp : ¬ Hull (l.map Plane.v0) p) (hx : Hull (l.map Plane.v0) x) : ∃ y, Boundary l y ∧ dist M p y ≤ dist M p x := by
  rw [hull_iff_inside ho] at hp
  have hxi := hull_inside ho x hx
  -- g s q is positive when q is beyond side s
  let g : V2 K × Plane K → V2 K → K := fun s q => s.2.n.dot (q.sub s.2.v0)
  let bad := (sides l).filter fun s => 0 < g s p
  have hbad : bad ≠ [] := by
    simp only [Inside] at hp
    push Not at hp
    obtain ⟨s, hs, hlt⟩ := hp
    exact List.ne_nil_of_mem (List.mem_filter.2 ⟨hs, by simpa [g] using hlt⟩)
  have hb : ∀ s ∈ bad, s ∈ sides l ∧ 0 < g s p := by
    intro s hs
    have := List.mem_filter.1 hs
    exact ⟨this.1, by simpa using this.2⟩
  -- the fraction of the way from x to p at which side s is reached
  let τ : V2 K × Plane K → K := fun s => -g s x / (g s p - g s x)
  obtain ⟨s, hs, hmin⟩ := exists_least τ bad hbad
  have hgx : ∀ s ∈ sides l, g s x ≤ 0 := hxi
  have hden : ∀ s ∈ bad, 0 < g s p - g s x := fun s hs => by have := hgx s (hb s hs).1; have := (hb s hs).2; linarith
  have hτ0 : ∀ s ∈ bad, 0 ≤ τ s := fun s hs => div_nonneg (by have := hgx s (hb s hs).1; linarith) (le_of_lt (hden s hs))
  have hτ1 : ∀ s ∈ bad, τ s ≤ 1 := fun s hs => (div_le_one (hden s hs)).2 (by have := (hb s hs).2; linarith)
  have hlin : ∀ q t, g q (At x p t) = g q x + t * (g q p - g q x) := by
    intro q t; simp only [g, V2.dot, V2.sub, At]; ring
  have hy : Inside l (At x p (τ s)) := by
    intro q hq
    change g q (At x p (τ s)) ≤ 0
    rw [hlin]
    by_cases hqb : 0 < g q p
    · have hqm : q ∈ bad := List.mem_filter.2 ⟨hq, by simpa using hqb⟩
      have h1 := hmin q hqm
      have h2 : τ s * (g q p - g q x) ≤ τ q * (g q p - g q x) := mul_le_mul_of_nonneg_right h1 (le_of_lt (hden q hqm))
      have h3 : τ q * (g q p - g q x) = -g q x := div_mul_cancel₀ _ (ne_of_gt (hden q hqm))
      linarith
    · have h1 := hgx q hq
      have := hτ0 s hs
      have := hτ1 s hs
      nlinarith
  have hy0 : s.2.n.dot ((At x p (τ s)).sub s.2.v0) = 0 := by
    change g s (At x p (τ s)) = 0
    rw [hlin]
    have : τ s * (g s p - g s x) = -g s x := div_mul_cancel₀ _ (ne_of_gt (hden s hs))
    linarith
  refine ⟨At x p (τ s), ⟨s, (hb s hs).1, hull_on_side ho s (hb s hs).1 _ (inside_hull ho _ hy) hy0⟩, ?_⟩
  rw [dist_le_dist hM]
  have e : dist2 p (At x p (τ s)) = (1 - τ s) ^ 2 * dist2 p x := by simp only [dist2, At]; ring
  rw [e]
  have h0 := hτ0 s hs
  have h1 := hτ1 s hs
  have : (1 - τ s) ^ 2 ≤ 1 := by nlinarith
  nlinarith [dist2_nonneg p x]

/-! ## The scan over the sides -/

theorem scan_spec (M : Mth K) (p : V2 K) (l : List (Plane K)) : ∀ st : PolyScan K,
    let f := l.foldl (PolyScan.next M p) st
    f.minDist ≤ st.minDist ∧
    (∀ s ∈ sidesFrom st.v0 l, f.minDist ≤ dist M p (closestPointOnSegment p s.1 s.2.v0)) ∧
    ((f.minDist = st.minDist ∧ f.closestPoint = st.closestPoint ∧ f.closestNormal = st.closestNormal) ∨
      ∃ s ∈ sidesFrom st.v0 l, f.closestPoint = closestPointOnSegment p s.1 s.2.v0 ∧
        f.minDist = dist M p (closestPointOnSegment p s.1 s.2.v0) ∧ f.closestNormal = s.2.n) ∧
    (f.outside = true ↔ st.outside = true ∨ ∃ s ∈ sidesFrom st.v0 l, 0 < s.2.n.dot (p.sub s.2.v0)) := by
  induction l with
  | nil => intro st; simp [sidesFrom]
  | cons pl l ih =>
    intro st
    obtain ⟨h1, h2, h3, h4⟩ := ih (PolyScan.next M p st pl)
    have hv : (PolyScan.next M p st pl).v0 = pl.v0 := by unfold PolyScan.next; dsimp only; split <;> rfl
    rw [hv] at h2 h3 h4
    have hmin : (PolyScan.next M p st pl).minDist ≤ st.minDist ∧
        (PolyScan.next M p st pl).minDist ≤ dist M p (closestPointOnSegment p st.v0 pl.v0) := by
      rw [dist_eq_mag]; unfold PolyScan.next; dsimp only
      split
      · rename_i h; exact ⟨le_of_lt h, le_refl _⟩
      · rename_i h; exact ⟨le_refl _, not_lt.1 h⟩
    have hout : (PolyScan.next M p st pl).outside = true ↔ st.outside = true ∨ 0 < pl.n.dot (p.sub pl.v0) := by
      unfold PolyScan.next; dsimp only
      split <;> (cases st.outside <;> simp)
    refine ⟨h1.trans hmin.1, ?_, ?_, ?_⟩
    · intro s hs
      simp only [sidesFrom, List.mem_cons] at hs
      rcases hs with rfl | hs
      · exact h1.trans hmin.2
      · exact h2 s hs
    · rcases h3 with ⟨e1, e2, e3⟩ | ⟨s, hs, h⟩
      · rw [List.foldl_cons, e1, e2, e3]
        unfold PolyScan.next; dsimp only
        split
        · right
          exact ⟨(st.v0, pl), by simp [sidesFrom], rfl, by rw [dist_eq_mag], rfl⟩
        · left; exact ⟨rfl, rfl, rfl⟩
      · right; exact ⟨s, by simp only [sidesFrom, List.mem_cons]; exact Or.inr hs, h⟩
    · rw [List.foldl_cons, h4, hout]
      simp only [sidesFrom, List.mem_cons, exists_eq_or_imp]
      rw [or_assoc]

/-- **C46.** On a strictly convex polygon of any number of vertexes `PointQuery` is exact: for a point outside the polygon
(before rounding) the distance reported plus the radius is the distance to the polygon; for a point inside it is minus the
distance to the boundary; it is negative or zero exactly for the points of the rounded polygon. `inf` must exceed the distances
to the vertexes. -/
theorem C46_poly_distance {M : Mth K} (hM : M.Lawful) (inf eps : K) (ps : Poly K) (hr : 0 ≤ ps.radius) (ho : Outline ps.world) (p : V2 K)
    (hinf : ∀ w ∈ ps.world, dist M p w.v0 < inf) :
    let i := ps.pointQuery M inf eps p
    (¬ Core (.poly ps) p → DistTo M (Core (.poly ps)) p (i.dist + ps.radius)) ∧
    (Core (.poly ps) p → DistTo M (Boundary ps.world) p (-(i.dist + ps.radius))) ∧
    (InShape (.poly ps) p ↔ i.dist ≤ 0) := by
  have hsp := scan_spec M p ps.world ⟨(ps.world.getLastD ⟨V2.zero, V2.zero⟩).v0, inf, V2.zero, V2.zero, false⟩
  set f := ps.scan M inf p with hf
  have hf' : ps.world.foldl (PolyScan.next M p) ⟨(ps.world.getLastD ⟨V2.zero, V2.zero⟩).v0, inf, V2.zero, V2.zero, false⟩ = f := rfl
  simp only [hf'] at hsp
  obtain ⟨_, h2, h3, h4⟩ := hsp
  change ∀ s ∈ sides ps.world, _ at h2
  change _ ∨ ∃ s ∈ sides ps.world, _ at h3
  -- the ends of a side are different
  have hends : ∀ s ∈ sides ps.world, s.1 ≠ s.2.v0 := by
    intro s hs e
    obtain ⟨⟨c, hc, hn⟩, hw⟩ := ho.2.2 s hs
    have hn0 : s.2.n = V2.zero := by rw [hn, e]; simp [V2.sub, V2.rperp, V2.scale, V2.zero]
    obtain ⟨hlen, hnd, _⟩ := ho
    have : ∀ w ∈ ps.world, w.v0 = s.2.v0 := by
      intro w hwm
      rcases hw w hwm with h | h | h
      · rw [h, e]
      · exact h
      · rw [hn0] at h; simp [V2.zero, V2.dot] at h
    rcases hps : ps.world with _ | ⟨a, _ | ⟨b, r⟩⟩
    · rw [hps] at hlen; simp at hlen
    · rw [hps] at hlen; simp at hlen
    · rw [hps] at hnd this
      rw [List.map_cons, List.map_cons, List.nodup_cons] at hnd
      apply hnd.1
      rw [this a (by simp), ← this b (by simp)]
      simp
  have hmem : ∃ s ∈ sides ps.world, f.minDist = dist M p (closestPointOnSegment p s.1 s.2.v0) := by
    rcases h3 with ⟨e, _⟩ | ⟨s, hs, _, h, _⟩
    · exfalso
      have hne : ps.world ≠ [] := by intro e; have := ho.1; rw [e] at this; simp at this
      obtain ⟨a, r, har⟩ := List.exists_cons_of_ne_nil hne
      have hsm : ((ps.world.getLastD ⟨V2.zero, V2.zero⟩).v0, a) ∈ sides ps.world := by
        unfold sides; rw [har]; simp [sidesFrom]
      have hle := h2 _ hsm
      have hcl := (closest_distTo hM p _ _ (hends _ hsm)).2 a.v0 ⟨1, zero_le_one, le_refl _, by simp [At]⟩
      have := hinf a (by rw [har]; simp)
      rw [e] at hle
      linarith
    · exact ⟨s, hs, h⟩
  have hbd : DistTo M (Boundary ps.world) p f.minDist := by
    obtain ⟨s, hs, e⟩ := hmem
    constructor
    · obtain ⟨⟨x, hx, ex⟩, _⟩ := closest_distTo hM p s.1 s.2.v0 (hends s hs)
      exact ⟨x, ⟨s, hs, hx⟩, by rw [ex, e]⟩
    · rintro x ⟨q, hq, hx⟩
      exact (h2 q hq).trans ((closest_distTo hM p q.1 q.2.v0 (hends q hq)).2 x hx)
  have hout : f.outside = true ↔ ¬ Core (.poly ps) p := by
    have : Core (.poly ps) p ↔ Inside ps.world p := hull_iff_inside ho p
    rw [this, h4]
    simp only [Bool.false_eq_true, false_or, Inside]
    push Not
    rfl
  have h0 : 0 ≤ f.minDist := by obtain ⟨s, hs, e⟩ := hmem; rw [e]; exact dist_nonneg hM _ _
  have hdist : (ps.pointQuery M inf eps p).dist + ps.radius = if f.outside then f.minDist else -f.minDist := by
    simp only [Poly.pointQuery, ← hf]; ring
  have hcoreB : ∀ x, Boundary ps.world x → Core (.poly ps) x := fun x ⟨s, hs, hx⟩ => side_hull hs x hx
  have A : ¬ Core (.poly ps) p → DistTo M (Core (.poly ps)) p ((ps.pointQuery M inf eps p).dist + ps.radius) := by
    intro hnc
    rw [hdist, if_pos (hout.2 hnc)]
    obtain ⟨⟨x, hx, ex⟩, hmin⟩ := hbd
    refine ⟨⟨x, hcoreB x hx, ex⟩, ?_⟩
    intro y hy
    obtain ⟨z, hz, hle⟩ := boundary_nearer hM ho p y hnc hy
    exact (hmin z hz).trans hle
  have B : Core (.poly ps) p → DistTo M (Boundary ps.world) p (-((ps.pointQuery M inf eps p).dist + ps.radius)) := by
    intro hc
    rw [hdist, if_neg (fun h => (hout.1 h) hc), neg_neg]
    exact hbd
  refine ⟨A, B, ?_⟩
  by_cases hc : Core (.poly ps) p
  · have hle : (ps.pointQuery M inf eps p).dist ≤ 0 := by
      have := hdist
      rw [if_neg (fun h => (hout.1 h) hc)] at this
      linarith
    refine ⟨fun _ => hle, fun _ => ⟨p, hc, ?_⟩⟩
    have : dist2 p p = 0 := by simp [dist2]
    rw [this]; exact mul_self_nonneg _
  · obtain ⟨⟨x, hx, ex⟩, hmin⟩ := A hc
    constructor
    · rintro ⟨q, hq, hd⟩
      have h5 := hmin q hq
      have hd' : dist M p q ≤ ps.radius := (dist_le_iff hM _ _ _ hr).2 hd
      linarith
    · intro h
      refine ⟨x, hx, ?_⟩
      have : dist M p x ≤ ps.radius := by rw [ex]; linarith
      exact (dist_le_iff hM _ _ _ hr).1 this


/-! ## Polygons made by the constructor are such outlines -/

/-- Pairs of consecutive vertexes. -/
def Spec.pairsFrom : V2 K → List (V2 K) → List (V2 K × V2 K)
  | _, [] => []
  | a, b :: l => (a, b) :: pairsFrom b l

/-- A strictly convex counter-clockwise list of vertexes: at least three, all different, and every other vertex strictly
to the left of each side. -/
def Spec.ConvexCCW (l : List (V2 K)) : Prop :=
  3 ≤ l.length ∧ l.Nodup ∧ ∀ e ∈ pairsFrom (l.getLastD V2.zero) l, e.1 ≠ e.2 ∧
    ∀ w ∈ l, w = e.1 ∨ w = e.2 ∨ 0 < (e.2.sub e.1).cross (w.sub e.1)

theorem setVertsGo_verts (M : Mth K) (l : List (V2 K)) : ∀ a, (setVertsGo M a l).map Plane.v0 = l := by
  induction l with
  | nil => intro a; rfl
  | cons b l ih => intro a; simp only [setVertsGo, List.map_cons, ih]

theorem sides_setVertsGo (M : Mth K) (t : Transform K) (l : List (V2 K)) : ∀ a,
    ∀ s ∈ sidesFrom (t.apply a) ((setVertsGo M a l).map fun s => (⟨t.apply s.v0, t.applyVector s.n⟩ : Plane K)),
      ∃ e ∈ pairsFrom a l, s = (t.apply e.1, ⟨t.apply e.2, t.applyVector (((e.2.sub e.1).rperp).unit M)⟩) := by
  induction l with
  | nil => intro a s hs; simp [setVertsGo, sidesFrom] at hs
  | cons b l ih =>
    intro a s hs
    simp only [setVertsGo, List.map_cons, sidesFrom, List.mem_cons] at hs
    rcases hs with rfl | hs
    · exact ⟨(a, b), by simp [pairsFrom], rfl⟩
    · obtain ⟨e, he, h⟩ := ih b s hs
      exact ⟨e, by simp only [pairsFrom, List.mem_cons]; exact Or.inr he, h⟩

theorem setVertsGo_last (M : Mth K) (l : List (V2 K)) (hne : l ≠ []) (t : Transform K) : ∀ a,
    (((setVertsGo M a l).map fun s => (⟨t.apply s.v0, t.applyVector s.n⟩ : Plane K)).getLastD ⟨V2.zero, V2.zero⟩).v0 =
      t.apply (l.getLastD V2.zero) := by
  induction l with
  | nil => exact absurd rfl hne
  | cons b l ih =>
    intro a
    rcases l with _ | ⟨c, l⟩
    · simp [setVertsGo]
    · have := ih (by simp) b
      simp only [setVertsGo, List.map_cons, List.getLastD_cons] at this ⊢
      exact this

/-- The planes of a polygon built from strictly convex counter-clockwise vertexes and cached under a rigid motion describe the
moved polygon, with outward normals. -/
theorem C46_outline {M : Mth K} (hM : M.Lawful) (inf r : K) (t : Transform K) (ht : Rigid t) (verts : List (V2 K)) (hv : ConvexCCW verts) :
    Outline ((Poly.new M verts r).cache inf t).1.world ∧
    ((Poly.new M verts r).cache inf t).1.world.map Plane.v0 = verts.map t.apply ∧
    ∀ pl ∈ ((Poly.new M verts r).cache inf t).1.world, pl.n.x ^ 2 + pl.n.y ^ 2 = 1 := by
  obtain ⟨hlen, hnd, hconv⟩ := hv
  obtain ⟨h1, h2, h3⟩ := ht
  have hne : verts ≠ [] := by rintro rfl; simp at hlen
  have hvs : ((Poly.new M verts r).cache inf t).1.world.map Plane.v0 = verts.map t.apply := by
    simp only [Poly.cache, Poly.new, Poly.setVerts, List.map_map]
    conv => rhs; rw [← setVertsGo_verts M verts (verts.getLastD V2.zero), List.map_map]
    rfl
  have hinj : Function.Injective t.apply := by
    intro p q e
    have h := rigid_dist2 t ⟨h1, h2, h3⟩ p q
    rw [e] at h
    have h0 : dist2 p q = 0 := by rw [← h]; simp [dist2]
    simp only [dist2] at h0
    ext
    · nlinarith [sq_nonneg (p.x - q.x), sq_nonneg (p.y - q.y), sq_nonneg (p.x - q.x - (p.y - q.y))]
    · nlinarith [sq_nonneg (p.x - q.x), sq_nonneg (p.y - q.y), sq_nonneg (p.x - q.x - (p.y - q.y))]
  have hsides : ∀ s ∈ sides ((Poly.new M verts r).cache inf t).1.world, ∃ e ∈ pairsFrom (verts.getLastD V2.zero) verts,
      s = (t.apply e.1, ⟨t.apply e.2, t.applyVector (((e.2.sub e.1).rperp).unit M)⟩) := by
    intro s hs
    simp only [sides, Poly.cache, Poly.new, Poly.setVerts] at hs
    rw [setVertsGo_last M verts hne t] at hs
    exact sides_setVertsGo M t verts _ s hs
  have hrp : ∀ e ∈ pairsFrom (verts.getLastD V2.zero) verts, (e.2.sub e.1).rperp ≠ V2.zero := by
    intro e he h0
    apply (hconv e he).1
    simp only [V2.rperp, V2.sub, V2.zero, V2.mk.injEq] at h0
    ext
    · linarith [h0.2]
    · linarith [h0.1]
  refine ⟨⟨?_, ?_, ?_⟩, hvs, ?_⟩
  · have := congrArg List.length hvs
    simp only [List.length_map] at this
    rw [this]; exact hlen
  · rw [hvs]; exact hnd.map hinj
  · intro s hs
    obtain ⟨e, he, rfl⟩ := hsides s hs
    obtain ⟨hab, hw⟩ := hconv e he
    have hm : 0 < ((e.2.sub e.1).rperp).mag M :=
      lt_of_le_of_ne (mag_nonneg hM _) (fun h => hrp e he (mag_eq_zero hM _ h.symm))
    refine ⟨⟨1 / ((e.2.sub e.1).rperp).mag M, one_div_pos.2 hm, ?_⟩, ?_⟩
    · have hu : ((e.2.sub e.1).rperp).unit M = ((e.2.sub e.1).rperp).scale (1 / ((e.2.sub e.1).rperp).mag M) := rfl
      rw [hu]
      simp only [V2.scale, V2.rperp, V2.sub, Transform.apply, Transform.applyVector, h2, h3]
      ext <;> simp only <;> ring
    · intro w hwm
      have hwv : w.v0 ∈ verts.map t.apply := by rw [← hvs]; exact List.mem_map_of_mem hwm
      obtain ⟨u, hu, hue⟩ := List.mem_map.1 hwv
      rcases hw u hu with h | h | h
      · left; rw [← hue, h]
      · right; left; rw [← hue, h]
      · right; right
        rw [← hue]
        have hu : ((e.2.sub e.1).rperp).unit M = ((e.2.sub e.1).rperp).scale (1 / ((e.2.sub e.1).rperp).mag M) := rfl
        rw [hu]
        have : (t.applyVector (((e.2.sub e.1).rperp).scale (1 / ((e.2.sub e.1).rperp).mag M))).dot ((t.apply u).sub (t.apply e.2)) =
            -((1 / ((e.2.sub e.1).rperp).mag M) * ((t.a ^ 2 + t.b ^ 2) * (e.2.sub e.1).cross (u.sub e.1))) := by
          simp only [V2.dot, V2.scale, V2.rperp, V2.sub, V2.cross, Transform.apply, Transform.applyVector, h2, h3]
          ring
        rw [this, h1, one_mul]
        have := mul_pos (one_div_pos.2 hm) h
        linarith
  · intro pl hpl
    simp only [Poly.cache, Poly.new, Poly.setVerts, List.mem_map] at hpl
    obtain ⟨q, hq, rfl⟩ := hpl
    have : ∀ (l : List (V2 K)) a q, q ∈ setVertsGo M a l → ∃ e ∈ pairsFrom a l, q.n = ((e.2.sub e.1).rperp).unit M := by
      intro l
      induction l with
      | nil => intro a q hq; simp [setVertsGo] at hq
      | cons b l ih =>
        intro a q hq
        simp only [setVertsGo, List.mem_cons] at hq
        rcases hq with rfl | hq
        · exact ⟨(a, b), by simp [pairsFrom], rfl⟩
        · obtain ⟨e, he, h⟩ := ih b q hq
          exact ⟨e, by simp only [pairsFrom, List.mem_cons]; exact Or.inr he, h⟩
    obtain ⟨e, he, hn⟩ := this _ _ q hq
    have hu := mag_scale_inv hM _ (hrp e he)
    rw [hn]
    have hu' : ((e.2.sub e.1).rperp).unit M = ((e.2.sub e.1).rperp).scale (1 / ((e.2.sub e.1).rperp).mag M) := rfl
    rw [hu']
    set g := ((e.2.sub e.1).rperp).scale (1 / ((e.2.sub e.1).rperp).mag M)
    simp only [Transform.applyVector, h2, h3]
    linear_combination (g.x ^ 2 + g.y ^ 2) * h1 + hu

/-! ## The nearest shape -/

/-- A shape on which point queries are exact: a circle, a segment with different ends, a strictly convex polygon. -/
def Spec.Regular (M : Mth K) (inf : K) (s : Cls K) (p : V2 K) : Prop :=
  match s with
  | .circle _ => True
  | .segment g => g.ta ≠ g.tb
  | .poly q => Outline q.world ∧ ∀ w ∈ q.world, dist M p w.v0 < inf

/-- On every kind of shape the sign of the distance reported decides membership, and for outside points the distance is
that of some point of the skeleton less the radius, and no point of the shape is nearer. -/
theorem C46_signed {M : Mth K} (hM : M.Lawful) (inf eps : K) (s : Cls K) (hr : 0 ≤ radiusOf s) (p : V2 K) (hs : Regular M inf s p) :
    let i := s.pointQuery M inf eps p
    (InShape s p ↔ i.dist ≤ 0) ∧ (0 < i.dist → DistTo M (Core s) p (i.dist + radiusOf s)) := by
  cases s with
  | circle c =>
    obtain ⟨h1, h2⟩ := C46_distance hM inf eps (.circle c) hr p (Or.inl ⟨c, rfl⟩)
    exact ⟨h2, fun _ => h1⟩
  | segment g =>
    obtain ⟨h1, h2⟩ := C46_distance hM inf eps (.segment g) hr p (Or.inr ⟨g, rfl, hs⟩)
    exact ⟨h2, fun _ => h1⟩
  | poly q =>
    obtain ⟨h1, h2, h3⟩ := C46_poly_distance hM inf eps q hr hs.1 p hs.2
    refine ⟨h3, fun hpos => h1 ?_⟩
    intro hc
    have : InShape (.poly q) p := by
      refine ⟨p, hc, ?_⟩
      have : dist2 p p = 0 := by simp [dist2]
      rw [this]; exact mul_self_nonneg _
    exact absurd (h3.1 this) (not_le.2 hpos)

theorem nearest_fold (M : Mth K) (inf eps : K) (p : V2 K) (filter : ShapeFilter) (l : List (QShape K)) : ∀ out : Nearest K,
    let ok := fun s : QShape K => s.filter.reject filter = false ∧ s.sensor = false
    let d := fun s : QShape K => (s.cls.pointQuery M inf eps p).dist
    let res := l.foldl (nearestVisit M inf eps p filter) out
    res.2.dist ≤ out.2.dist ∧ (∀ s ∈ l, ok s → res.2.dist ≤ d s) ∧
    (res = out ∨ ∃ s ∈ l, ok s ∧ res = (some s, s.cls.pointQuery M inf eps p) ∧ d s < out.2.dist) := by
  induction l with
  | nil => intro out; simp
  | cons a l ih =>
    intro out
    dsimp only
    obtain ⟨h1, h2, h3⟩ := ih (nearestVisit M inf eps p filter out a)
    have hv : (nearestVisit M inf eps p filter out a).2.dist ≤ out.2.dist ∧
        ((a.filter.reject filter = false ∧ a.sensor = false) →
          (nearestVisit M inf eps p filter out a).2.dist ≤ (a.cls.pointQuery M inf eps p).dist) ∧
        (nearestVisit M inf eps p filter out a = out ∨ (a.filter.reject filter = false ∧ a.sensor = false) ∧
          nearestVisit M inf eps p filter out a = (some a, a.cls.pointQuery M inf eps p) ∧
          (a.cls.pointQuery M inf eps p).dist < out.2.dist) := by
      unfold nearestVisit
      split
      · rename_i h
        simp only [Bool.and_eq_true, Bool.not_eq_true'] at h
        dsimp only
        split
        · rename_i hlt
          exact ⟨le_of_lt hlt, fun _ => le_refl _, Or.inr ⟨h, rfl, hlt⟩⟩
        · rename_i hlt
          exact ⟨le_refl _, fun _ => not_lt.1 hlt, Or.inl rfl⟩
      · rename_i h
        simp only [Bool.and_eq_true, Bool.not_eq_true'] at h
        exact ⟨le_refl _, fun h' => absurd h' h, Or.inl rfl⟩
    obtain ⟨v1, v2, v3⟩ := hv
    rw [List.foldl_cons]
    refine ⟨h1.trans v1, ?_, ?_⟩
    · intro s hs hok
      rcases List.mem_cons.1 hs with rfl | hs
      · exact h1.trans (v2 hok)
      · exact h2 s hs hok
    · rcases h3 with h3 | ⟨s, hs, hok, he, hlt⟩
      · rw [h3]
        rcases v3 with v3 | ⟨hok, he, hlt⟩
        · exact Or.inl v3
        · exact Or.inr ⟨a, by simp, hok, he, hlt⟩
      · exact Or.inr ⟨s, List.mem_cons_of_mem _ hs, hok, he, lt_of_lt_of_le hlt v1⟩

/-- A shape nearer than the maximum distance has a box that meets the box searched. -/
theorem near_box {M : Mth K} (hM : M.Lawful) (inf eps : K) (p : V2 K) (maxD : K) (s : Cls K) (bb : BB K) (hr : 0 ≤ radiusOf s)
    (hs : Regular M inf s p) (hbb : ∀ x, InShape s x → InBox bb x)
    (hd : (s.pointQuery M inf eps p).dist < maxD) : bb.intersects (nearestBox p maxD) = true := by
  obtain ⟨h1, h2⟩ := C46_signed hM inf eps s hr p hs
  have hm := le_max_left maxD (0 : K)
  have hm0 := le_max_right maxD (0 : K)
  rw [BB.intersects_iff]
  simp only [nearestBox, BB.forCircle, BB.forExtents]
  set m := max maxD 0
  rcases le_or_gt (s.pointQuery M inf eps p).dist 0 with h | h
  · obtain ⟨a1, a2, a3, a4⟩ := hbb p (h1.2 h)
    refine ⟨?_, ?_, ?_, ?_⟩ <;> linarith
  · obtain ⟨⟨x, hx, ex⟩, _⟩ := h2 h
    set d := (s.pointQuery M inf eps p).dist
    set r := radiusOf s with hrd
    have hsq : dist2 p x = (d + r) * (d + r) := by rw [← ex, dist_sq hM]
    obtain ⟨ax, ay⟩ := abs_le_of_sq_le (p.x - x.x) (p.y - x.y) (d + r) (by linarith) (le_of_eq hsq)
    rw [abs_le] at ax ay
    have pt : ∀ u v, u ^ 2 + v ^ 2 ≤ r * r → InBox bb ⟨x.x + u, x.y + v⟩ := by
      intro u v huv
      refine hbb _ ⟨x, hx, ?_⟩
      simp only [dist2]
      have : (x.x + u - x.x) ^ 2 + (x.y + v - x.y) ^ 2 = u ^ 2 + v ^ 2 := by ring
      rw [this]; exact huv
    have b1 := (pt r 0 (by nlinarith)).2.1
    have b2 := (pt (-r) 0 (by nlinarith)).1
    have b3 := (pt 0 r (by nlinarith)).2.2.2
    have b4 := (pt 0 (-r) (by nlinarith)).2.2.1
    dsimp only at b1 b2 b3 b4
    refine ⟨?_, ?_, ?_, ?_⟩ <;> linarith

/-- **C46.** `PointQueryNearest` over all the shapes of a space: every shape has the box of its last caching; the indexes
report at least the shapes whose box meets the box searched. Then either some accepted shape nearer than `maxDistance` is
returned with its own query result and no accepted shape of the space is nearer, or nothing is returned and no accepted
shape is nearer than `maxDistance`. -/
theorem C46_nearest {M : Mth K} (hM : M.Lawful) (inf eps : K) (p : V2 K) (maxD : K) (filter : ShapeFilter) (all dyn stat : List (QShape K))
    (hall : ∀ s ∈ all, 0 ≤ radiusOf s.cls ∧ Regular M inf s.cls p ∧ ∃ t c, Cls.cache inf t c = (s.cls, s.bb))
    (hsub : ∀ s ∈ dyn ++ stat, s ∈ all)
    (hrep : ∀ s ∈ all, s.bb.intersects (nearestBox p maxD) = true → s ∈ dyn ++ stat) :
    let ok := fun s : QShape K => s.filter.reject filter = false ∧ s.sensor = false
    let d := fun s : QShape K => (s.cls.pointQuery M inf eps p).dist
    let res := pointQueryNearest M inf eps p maxD filter dyn stat
    (res = (none, ⟨V2.zero, maxD, V2.zero⟩) ∧ ∀ s ∈ all, ok s → maxD ≤ d s) ∨
    ∃ s ∈ all, ok s ∧ res = (some s, s.cls.pointQuery M inf eps p) ∧ d s < maxD ∧ ∀ s' ∈ all, ok s' → d s ≤ d s' := by
  intro ok d res
  have hres : res = (dyn ++ stat).foldl (nearestVisit M inf eps p filter) (none, ⟨V2.zero, maxD, V2.zero⟩) := by
    rw [List.foldl_append]; rfl
  obtain ⟨h1, h2, h3⟩ := nearest_fold M inf eps p filter (dyn ++ stat) (none, ⟨V2.zero, maxD, V2.zero⟩)
  rw [← hres] at h1 h2 h3
  have hin : ∀ s ∈ all, d s < maxD → s ∈ dyn ++ stat := by
    intro s hs hlt
    obtain ⟨hr, hreg, t, c, hc⟩ := hall s hs
    refine hrep s hs (near_box hM inf eps p maxD s.cls s.bb hr hreg ?_ hlt)
    intro x hx
    have e1 : s.cls = (Cls.cache inf t c).1 := by rw [hc]
    have e2 : s.bb = (Cls.cache inf t c).2 := by rw [hc]
    have hr' : 0 ≤ radiusOf c := by rw [← radius_cache inf t c, ← e1]; exact hr
    rw [e2]
    exact C43_box_contains_cached inf t c hr' x (e1 ▸ hx)
  rcases h3 with h3 | ⟨s, hs, hok, he, hlt⟩
  · left
    refine ⟨h3, fun s hs hok => ?_⟩
    by_contra hlt
    push Not at hlt
    have := h2 s (hin s hs hlt) hok
    rw [h3] at this
    exact absurd this (not_le.2 hlt)
  · right
    refine ⟨s, hsub s hs, hok, he, hlt, fun s' hs' hok' => ?_⟩
    have hd : res.2.dist = d s := by rw [he]
    rcases lt_or_ge (d s') maxD with h | h
    · rw [← hd]; exact h2 s' (hin s' hs' h) hok'
    · exact (le_of_lt hlt).trans h

/-! ## Examples -/

/-- A unit square. -/
def exSquare {K : Type} [Zero K] [One K] : List (V2 K) := [⟨0, 0⟩, ⟨1, 0⟩, ⟨1, 1⟩, ⟨0, 1⟩]

theorem exSquare_convex : ConvexCCW (exSquare (K := ℝ)) := by
  refine ⟨by simp [exSquare], by simp [exSquare], ?_⟩
  simp [exSquare, pairsFrom, V2.cross, V2.sub]

example : Outline ((Poly.new realMth exSquare (1/4)).cache 1000 Transform.identity).1.world :=
  (C46_outline realMth_lawful 1000 (1/4) Transform.identity (by simp [Rigid, Transform.identity]) _ exSquare_convex).1

/-- The square with its planes, as cached in place. -/
def exSquarePoly : Poly ℚ := ⟨1/4, [⟨⟨0, 0⟩, ⟨-1, 0⟩⟩, ⟨⟨1, 0⟩, ⟨0, -1⟩⟩, ⟨⟨1, 1⟩, ⟨1, 0⟩⟩, ⟨⟨0, 1⟩, ⟨0, 1⟩⟩], []⟩

example : Outline exSquarePoly.world := by
  refine ⟨by simp [exSquarePoly], by simp [exSquarePoly], ?_⟩
  simp only [sides, sidesFrom, exSquarePoly, List.getLastD_cons, List.mem_cons, List.not_mem_nil, or_false]
  rintro s (rfl | rfl | rfl | rfl) <;> refine ⟨⟨1, by norm_num, by simp [V2.rperp, V2.sub, V2.scale]⟩, ?_⟩ <;>
    simp [V2.dot, V2.sub]

/-- A square root by bisection, between 0 and `hi`, exact when the root is met. -/
def bisect (q : ℚ) : Nat → ℚ → ℚ → ℚ
  | 0, lo, _ => lo
  | n + 1, lo, hi =>
    let m := (lo + hi) / 2
    if m * m = q then m else if m * m < q then bisect q n m hi else bisect q n lo m

/-- Functions on `ℚ` for examples: roots are approximated to about one in a thousand, and exact when they are multiples of
1/32 up to 32. -/
def gridMth : Mth ℚ := { toyMth with sqrt := fun q => if q ≤ 0 then 0 else bisect q 10 0 32 }

example : (exSquarePoly.pointQuery gridMth 1000 0 ⟨3, 1/2⟩).dist = 7/4 ∧
    (exSquarePoly.pointQuery gridMth 1000 0 ⟨3, 1/2⟩).point = ⟨5/4, 1/2⟩ ∧
    (exSquarePoly.pointQuery gridMth 1000 0 ⟨3, 1/2⟩).grad = ⟨1, 0⟩ := by decide +kernel

/-- Three discs, one a sensor; the nearest accepted one is returned. -/
def exNear : List (QShape ℚ) :=
  [⟨.circle ⟨⟨5, 0⟩, ⟨5, 0⟩, 1⟩, ⟨4, -1, 6, 1⟩, ShapeFilter.all, false⟩,
   ⟨.circle ⟨⟨2, 0⟩, ⟨2, 0⟩, 1⟩, ⟨1, -1, 3, 1⟩, ShapeFilter.all, true⟩,
   ⟨.circle ⟨⟨3, 0⟩, ⟨3, 0⟩, 1⟩, ⟨2, -1, 4, 1⟩, ShapeFilter.all, false⟩]

example : (pointQueryNearest toyMth 1000 0 ⟨0, 0⟩ 10 ShapeFilter.all exNear []).1 = exNear[2]? ∧
    (pointQueryNearest toyMth 1000 0 ⟨0, 0⟩ 10 ShapeFilter.all exNear []).2.dist = 2 ∧
    (pointQueryNearest toyMth 1000 0 ⟨0, 0⟩ 2 ShapeFilter.all exNear []).1 = none := by decide +kernel

example : ∀ s ∈ exNear, 0 ≤ radiusOf s.cls ∧ Regular toyMth 1000 s.cls ⟨0, 0⟩ ∧ ∃ t c, Cls.cache 1000 t c = (s.cls, s.bb) := by
  simp only [exNear, List.mem_cons, List.not_mem_nil, or_false]
  rintro s (rfl | rfl | rfl)
  · exact ⟨by norm_num [radiusOf], trivial, Transform.identity, .circle ⟨⟨5, 0⟩, V2.zero, 1⟩, by decide +kernel⟩
  · exact ⟨by norm_num [radiusOf], trivial, Transform.identity, .circle ⟨⟨2, 0⟩, V2.zero, 1⟩, by decide +kernel⟩
  · exact ⟨by norm_num [radiusOf], trivial, Transform.identity, .circle ⟨⟨3, 0⟩, V2.zero, 1⟩, by decide +kernel⟩

/-- On a body turned by a quarter the gradient at a point of a segment is the normal before turning, not the one of the turned
segment. -/
example : let s := ((Segment.new toyMth ⟨0, 0⟩ ⟨1, 0⟩ 1).cache ⟨0, 1, -1, 0, 0, 0⟩).1
    (s.pointQuery toyMth 0 ⟨0, 1/2⟩).grad = ⟨0, -1⟩ ∧ s.tn = ⟨1, 0⟩ ∧ s.ta = ⟨0, 0⟩ ∧ s.tb = ⟨0, 1⟩ := by decide +kernel

/-- A segment and a point off it, for the theorems of `ShapePoint`. -/
example : let s : Cls ℝ := .segment ⟨⟨0, 0⟩, ⟨4, 0⟩, ⟨0, -1⟩, ⟨0, 0⟩, ⟨4, 0⟩, ⟨0, -1⟩, 1, ⟨0, 0⟩, ⟨0, 0⟩⟩
    0 ≤ radiusOf s ∧ (∃ g, s = .segment g ∧ g.ta ≠ g.tb) ∧ ¬ Core s ⟨2, 3⟩ ∧ Core s ⟨1, 0⟩ := by
  refine ⟨by norm_num [radiusOf], ⟨_, rfl, by simp⟩, ?_, 1/4, by norm_num, by norm_num, by norm_num [At]⟩
  rintro ⟨t, _, _, h⟩
  simp [At] at h

example : let s : Segment ℚ := ⟨⟨0, 0⟩, ⟨4, 0⟩, ⟨0, -1⟩, ⟨0, 0⟩, ⟨4, 0⟩, ⟨0, -1⟩, 1, ⟨0, 0⟩, ⟨0, 0⟩⟩
    s.pointQuery toyMth 0 ⟨2, 3⟩ = ⟨⟨2, 1⟩, 2, ⟨0, 1⟩⟩ := by decide +kernel

end Cm
