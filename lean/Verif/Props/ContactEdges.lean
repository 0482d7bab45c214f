import Verif.Props.Epa
import Verif.Props.ShapeMade
/-! # C100: the contacts of rods and polygons lie on both shapes, face each other and show the exact depth -/
set_option linter.unusedSectionVars false
set_option linter.unusedSimpArgs false
set_option linter.unusedVariables false

namespace Cm
open Spec
variable {K : Type} [Field K] [LinearOrder K] [IsStrictOrderedRing K]

namespace Spec
/-- The closest-point search gave a true answer: a point of each shape, exactly `d` apart along the unit vector `n`, and no two points of the shapes are less than `d` apart along `n`. -/
structure Exact (s1 s2 : Cls K) (c : Closest K) : Prop where
  fst : Core s1 c.a
  snd : Core s2 c.b
  unit : c.n.lengthSq = 1
  along : c.b.sub c.a = c.n.scale c.d
  least : ∀ x y, Core s1 x → Core s2 y → c.d ≤ (y.sub x).dot c.n

/-- A rod of some length which is not seen end-on along `n`, with the normal on the right of it and no neighbours; or a strictly convex polygon with outward unit normals. -/
def Edged (n : V2 K) : Cls K → Prop
  | .circle _ => False
  | .segment s => s.tn.dot (s.tb.sub s.ta) = 0 ∧ (s.tb.sub s.ta).cross s.tn < 0 ∧ s.tn.dot n ≠ 0 ∧ s.aTangent = V2.zero ∧ s.bTangent = V2.zero
  | .poly p => Outline p.world ∧ ∀ pl ∈ p.world, pl.n.x ^ 2 + pl.n.y ^ 2 = 1

/-- A contact between two shapes along `n`: made of a point of each skeleton moved by the radius towards the other shape; the two points face each other along `n` and do not show a gap. -/
structure Touching (s1 s2 : Cls K) (n : V2 K) (k : Pushed K) : Prop where
  on1 : ∃ x, Core s1 x ∧ k.p1 = x.add (n.scale (radiusOf s1))
  on2 : ∃ x, Core s2 x ∧ k.p2 = x.sub (n.scale (radiusOf s2))
  facing : (k.p2.sub k.p1).cross n = 0
  shut : (k.p2.sub k.p1).dot n ≤ 0
end Spec

/-! ## Hulls and the farthest side -/

/-- If all the farthest corners are `p` or `q`, then all the farthest points are between `p` and `q`. -/
theorem hull_face {l : List (V2 K)} {n : V2 K} {m : K} {p q : V2 K} (hle : ∀ v ∈ l, v.dot n ≤ m) (hpq : ∀ v ∈ l, v.dot n = m → v = p ∨ v = q)
    {x : V2 K} (hx : Hull l x) (hm : x.dot n = m) : OnSegment p q x := by
  induction hx with
  | vert v hv =>
    rcases hpq v hv hm with rfl | rfl
    · exact ⟨0, le_refl _, zero_le_one, by simp [At]⟩
    · exact ⟨1, zero_le_one, le_refl _, by simp [At]⟩
  | mix a b t ha hb t0 t1 iha ihb =>
    have e : (At a b t).dot n = (1 - t) * a.dot n + t * b.dot n := by simp only [V2.dot, At]; ring
    rw [e] at hm
    have ga := hull_dot_le l n m hle a ha
    have gb := hull_dot_le l n m hle b hb
    rcases t0.lt_or_eq with ht0 | rfl
    · rcases t1.lt_or_eq with ht1 | rfl
      · have za : a.dot n = m := by
          by_contra h
          have : a.dot n < m := lt_of_le_of_ne ga h
          nlinarith [mul_lt_mul_of_pos_left this (sub_pos.2 ht1), mul_le_mul_of_nonneg_left gb t0]
        have zb : b.dot n = m := by
          by_contra h
          have : b.dot n < m := lt_of_le_of_ne gb h
          nlinarith [mul_lt_mul_of_pos_left this ht0, mul_le_mul_of_nonneg_left ga (sub_pos.2 ht1).le]
        obtain ⟨u, u0, u1, rfl⟩ := iha za
        obtain ⟨v, v0, v1, rfl⟩ := ihb zb
        refine ⟨u + t * (v - u), by nlinarith, by nlinarith, ?_⟩
        simp only [At]; ext <;> simp only <;> ring
      · have : At a b 1 = b := by simp [At]
        rw [this]; exact ihb (by linarith)
    · have : At a b 0 = a := by simp [At]
      rw [this]; exact iha (by linarith)

theorem sidesFrom_getElem (l : List (Plane K)) : ∀ (v : V2 K) (i : Nat) (h : i < l.length),
    ((if i = 0 then v else (planeAt l (i - 1)).v0), planeAt l i) ∈ sidesFrom v l := by
  induction l with
  | nil => intro v i h; simp at h
  | cons pl l ih =>
    intro v i h
    cases i with
    | zero => simp [sidesFrom, planeAt]
    | succ i =>
      simp only [sidesFrom, List.mem_cons]
      right
      have := ih pl.v0 i (by simpa using h)
      cases i with
      | zero => simpa [planeAt] using this
      | succ i => simpa [planeAt] using this

theorem side_at (l : List (Plane K)) (i : Nat) (h : i < l.length) :
    ((planeAt l ((i + l.length - 1) % l.length)).v0, planeAt l i) ∈ sides l := by
  have := sidesFrom_getElem l (l.getLastD ⟨V2.zero, V2.zero⟩).v0 i h
  unfold sides
  convert this using 2
  split
  · rename_i h0
    subst h0
    have hl : l ≠ [] := by intro e; simp [e] at h
    rw [Nat.zero_add, Nat.mod_eq_of_lt (by omega)]
    unfold planeAt
    rw [List.getD_eq_getElem?_getD, List.getElem?_eq_getElem (by omega), Option.getD_some, List.getLastD_eq_getLast?, List.getLast?_eq_getElem?,
      List.getElem?_eq_getElem (by omega), Option.getD_some]
  · rw [show i + l.length - 1 = (i - 1) + l.length by omega, Nat.add_mod_right, Nat.mod_eq_of_lt (by omega)]

theorem side_next (l : List (Plane K)) (i : Nat) (h : i < l.length) :
    ((planeAt l i).v0, planeAt l ((i + 1) % l.length)) ∈ sides l := by
  have h' : (i + 1) % l.length < l.length := Nat.mod_lt _ (by omega)
  have := side_at l _ h'
  convert this using 4
  rcases (by omega : i + 1 < l.length ∨ i + 1 = l.length) with h1 | h1
  · rw [Nat.mod_eq_of_lt h1, show i + 1 + l.length - 1 = i + l.length by omega, Nat.add_mod_right, Nat.mod_eq_of_lt h]
  · rw [h1, Nat.mod_self, Nat.zero_add, Nat.mod_eq_of_lt (by omega)]; omega

set_option maxHeartbeats 800000 in
/-- At a corner of a strictly convex polygon farthest along `n`, between the sides `A` (ending there) and `B` (starting there): the side whose normal is closer to `n` faces along `n`, and
all farthest corners are its ends. -/
theorem corner_sides {l : List (Plane K)} (ho : Outline l) (hu : ∀ pl ∈ l, pl.n.x ^ 2 + pl.n.y ^ 2 = 1) {n : V2 K} (hn : n.lengthSq = 1)
    {A B : V2 K × Plane K} (hA : A ∈ sides l) (hB : B ∈ sides l) (hAB : A.2.v0 = B.1) (hne : A.1 ≠ B.2.v0)
    (hmax : ∀ w ∈ l, w.v0.dot n ≤ B.1.dot n) :
    let S := if n.dot A.2.n > n.dot B.2.n then A else B
    (S.2.v0.sub S.1).cross n < 0 ∧ ∀ w ∈ l, w.v0.dot n = B.1.dot n → w.v0 = S.1 ∨ w.v0 = S.2.v0 := by
  obtain ⟨v0, PA⟩ := A
  obtain ⟨v, PB⟩ := B
  simp only at hAB hne
  subst hAB
  obtain ⟨⟨ca, hca, eA⟩, hwA⟩ := ho.2.2 _ hA
  obtain ⟨⟨cb, hcb, eB⟩, hwB⟩ := ho.2.2 _ hB
  simp only at eA eB hwA hwB hmax
  obtain ⟨w0, hw0, e0⟩ := mem_sides_fst hA
  simp only at e0
  have hPB := mem_sidesFrom_snd hB
  have hPA := mem_sidesFrom_snd hA
  simp only at hPA hPB
  have uA := hu _ hPA
  have uB := hu _ hPB
  have m0 := hmax w0 hw0
  have m1 := hmax PB hPB
  rw [← e0] at m0
  -- the turn to the left
  have hneq : PA.v0 ≠ PB.v0 := by
    intro e
    rw [eB, e] at uB
    simp [V2.sub, V2.rperp, V2.scale] at uB
  have turn : 0 < (PA.v0.sub v0).cross (PB.v0.sub PA.v0) := by
    rcases hwA PB hPB with h | h | h
    · exact absurd h.symm hne
    · exact absurd h.symm hneq
    · rw [eA] at h
      simp only [V2.dot, V2.sub, V2.rperp, V2.scale, V2.cross] at h ⊢
      by_contra hc
      have := mul_nonneg hca.le (not_lt.1 hc |> sub_nonneg.2)
      linarith
  obtain ⟨a, ea⟩ : ∃ a, a = PA.v0.sub v0 := ⟨_, rfl⟩
  obtain ⟨b, eb⟩ : ∃ b, b = PB.v0.sub PA.v0 := ⟨_, rfl⟩
  rw [← ea] at eA turn
  rw [← eb] at eB turn
  have ha : 0 ≤ n.dot a := by rw [ea]; simp only [V2.dot, V2.sub] at m0 ⊢; linarith
  have hb : n.dot b ≤ 0 := by rw [eb]; simp only [V2.dot, V2.sub] at m1 ⊢; linarith
  have eAd : n.dot PA.n = ca * (n.dot a.rperp) := by rw [eA]; simp only [V2.dot, V2.scale]; ring
  have eBd : n.dot PB.n = cb * (n.dot b.rperp) := by rw [eB]; simp only [V2.dot, V2.scale]; ring
  have cone : (a.cross b) * n.lengthSq = (n.dot a) * (n.dot b.rperp) - (n.dot a.rperp) * (n.dot b) := by
    simp only [V2.cross, V2.lengthSq, V2.dot, V2.rperp]; ring
  rw [hn, mul_one] at cone
  have pos : 0 < n.dot PA.n ∨ 0 < n.dot PB.n := by
    by_contra hc
    rw [not_or, not_lt, not_lt, eAd, eBd] at hc
    have h1 : n.dot a.rperp ≤ 0 := by by_contra h; have := mul_pos hca (not_le.1 h); linarith [hc.1]
    have h2 : n.dot b.rperp ≤ 0 := by by_contra h; have := mul_pos hcb (not_le.1 h); linarith [hc.2]
    have := mul_nonneg ha (neg_nonneg.2 h2)
    have := mul_nonneg (neg_nonneg.2 h1) (neg_nonneg.2 hb)
    linarith
  constructor
  · split
    · rename_i h
      have hp : 0 < n.dot PA.n := by rcases pos with p | p <;> linarith
      rw [eAd] at hp
      have : (PA.v0.sub v0).cross n = -(n.dot a.rperp) := by rw [← ea]; simp only [V2.cross, V2.dot, V2.rperp]; ring
      show (PA.v0.sub v0).cross n < 0
      rw [this]
      have := (mul_pos_iff_of_pos_left hca).1 hp
      linarith
    · rename_i h
      have hp : 0 < n.dot PB.n := by rcases pos with p | p <;> linarith
      rw [eBd] at hp
      have : (PB.v0.sub PA.v0).cross n = -(n.dot b.rperp) := by rw [← eb]; simp only [V2.cross, V2.dot, V2.rperp]; ring
      show (PB.v0.sub PA.v0).cross n < 0
      rw [this]
      have := (mul_pos_iff_of_pos_left hcb).1 hp
      linarith
  · intro w hw hwm
    by_cases hv : w.v0 = PA.v0
    · split
      · exact Or.inr hv
      · exact Or.inl hv
    -- the other corner
    obtain ⟨u, eu⟩ : ∃ u, u = w.v0.sub PA.v0 := ⟨_, rfl⟩
    have hnu : n.dot u = 0 := by rw [eu]; simp only [V2.dot, V2.sub] at hwm ⊢; linarith
    have hA' : w.v0 = v0 ∨ a.rperp.dot u < 0 := by
      rcases hwA w hw with h | h | h
      · exact Or.inl h
      · exact absurd h hv
      · right
        rw [eA, ← eu] at h
        have e : (a.rperp.scale ca).dot u = ca * a.rperp.dot u := by simp only [V2.dot, V2.scale]; ring
        rw [e] at h
        by_contra hc
        have := mul_nonneg hca.le (not_lt.1 hc)
        linarith
    have hB' : w.v0 = PB.v0 ∨ b.rperp.dot u < 0 := by
      rcases hwB w hw with h | h | h
      · exact absurd h hv
      · exact Or.inl h
      · right
        have e : PB.n.dot (w.v0.sub PB.v0) = cb * b.rperp.dot u := by
          rw [eB, eu, eb]; simp only [V2.dot, V2.scale, V2.rperp, V2.sub]; ring
        rw [e] at h
        by_contra hc
        have := mul_nonneg hcb.le (not_lt.1 hc)
        linarith
    have hA0 : a.rperp.dot u ≤ 0 := by
      rcases hA' with h | h
      · have : u = a.neg := by rw [eu, ea, h]; ext <;> simp [V2.sub, V2.neg]
        rw [this]; simp only [V2.dot, V2.rperp, V2.neg]; exact le_of_eq (by ring)
      · exact h.le
    have hB0 : b.rperp.dot u ≤ 0 := by
      rcases hB' with h | h
      · have : u = b := by rw [eu, eb, h]
        rw [this]; simp only [V2.dot, V2.rperp]; exact le_of_eq (by ring)
      · exact h.le
    have comb : (-(n.dot b)) * (a.rperp.dot u) + (n.dot a) * (b.rperp.dot u) = 0 := by
      have : (-(n.dot b)) * (a.rperp.dot u) + (n.dot a) * (b.rperp.dot u) = (a.cross b) * n.dot u := by
        simp only [V2.cross, V2.dot, V2.rperp]; ring
      rw [this, hnu, mul_zero]
    have z1 : (-(n.dot b)) * (a.rperp.dot u) ≤ 0 := mul_nonpos_of_nonneg_of_nonpos (by linarith) hA0
    have z2 : (n.dot a) * (b.rperp.dot u) ≤ 0 := mul_nonpos_of_nonneg_of_nonpos ha hB0
    have y1 : (n.dot b) = 0 ∨ a.rperp.dot u = 0 := by
      have : (-(n.dot b)) * (a.rperp.dot u) = 0 := by linarith
      rcases mul_eq_zero.1 this with h | h
      · left; linarith
      · exact Or.inr h
    have y2 : (n.dot a) = 0 ∨ b.rperp.dot u = 0 := mul_eq_zero.1 (by linarith)
    -- unit normals which are not equal
    have crossN : 0 < PA.n.cross PB.n := by
      have : PA.n.cross PB.n = ca * cb * a.cross b := by rw [eA, eB]; simp only [V2.cross, V2.scale, V2.rperp]; ring
      rw [this]; exact mul_pos (mul_pos hca hcb) turn
    have lagr : (PA.n.dot PB.n) ^ 2 + (PA.n.cross PB.n) ^ 2 = 1 := by
      have : (PA.n.dot PB.n) ^ 2 + (PA.n.cross PB.n) ^ 2 = (PA.n.x ^ 2 + PA.n.y ^ 2) * (PB.n.x ^ 2 + PB.n.y ^ 2) := by
        simp only [V2.cross, V2.dot]; ring
      rw [this, uA, uB, one_mul]
    have dotlt : PA.n.dot PB.n < 1 := by
      by_contra h
      have h := not_lt.1 h
      nlinarith [mul_pos crossN crossN]
    -- n in the cone of the normals
    have nx : (a.cross b) * n.x = -(n.dot b) * a.rperp.x + (n.dot a) * b.rperp.x := by simp only [V2.cross, V2.dot, V2.rperp]; ring
    have ny : (a.cross b) * n.y = -(n.dot b) * a.rperp.y + (n.dot a) * b.rperp.y := by simp only [V2.cross, V2.dot, V2.rperp]; ring
    rcases y1 with h1 | h1
    · rcases y2 with h2 | h2
      · exfalso
        rw [h1, h2] at cone
        linarith
      · -- n along the normal of B
        have hw : w.v0 = PB.v0 := by
          rcases hB' with h | h
          · exact h
          · rw [h2] at h; exact absurd h (lt_irrefl _)
        have ha' : 0 < n.dot a := lt_of_le_of_ne ha (by
          intro h; rw [h1, ← h] at cone; linarith)
        have hno : ¬ n.dot PA.n > n.dot PB.n := by
          rw [gt_iff_lt, not_lt]
          have e1 : (cb * a.cross b) * n.dot PA.n = n.dot a * PA.n.dot PB.n := by
            have : (cb * a.cross b) * n.dot PA.n = cb * ((a.cross b * n.x) * PA.n.x + (a.cross b * n.y) * PA.n.y) := by simp only [V2.dot]; ring
            rw [this, nx, ny, h1, eB]; simp only [V2.dot, V2.scale]; ring
          have e2 : (cb * a.cross b) * n.dot PB.n = n.dot a := by
            have : (cb * a.cross b) * n.dot PB.n = cb * ((a.cross b * n.x) * PB.n.x + (a.cross b * n.y) * PB.n.y) := by simp only [V2.dot]; ring
            rw [this, nx, ny, h1]
            have : cb * ((-(0:K) * a.rperp.x + n.dot a * b.rperp.x) * PB.n.x + (-0 * a.rperp.y + n.dot a * b.rperp.y) * PB.n.y) =
                n.dot a * ((b.rperp.scale cb).x * PB.n.x + (b.rperp.scale cb).y * PB.n.y) := by simp only [V2.scale]; ring
            rw [this, ← eB]
            linear_combination n.dot a * uB
          have : (cb * a.cross b) * n.dot PA.n ≤ (cb * a.cross b) * n.dot PB.n := by
            rw [e1, e2]; exact mul_le_of_le_one_right ha dotlt.le
          exact le_of_mul_le_mul_left this (mul_pos hcb turn)
        rw [if_neg hno]
        exact Or.inr hw
    · -- n along the normal of A
      have hw : w.v0 = v0 := by
        rcases hA' with h | h
        · exact h
        · rw [h1] at h; exact absurd h (lt_irrefl _)
      have hA0' : n.dot a = 0 := by
        rw [hw] at hwm
        rw [ea]; simp only [V2.dot, V2.sub] at hwm ⊢; linarith
      have hb' : 0 < -(n.dot b) := by
        rcases lt_or_eq_of_le hb with h | h
        · linarith
        · exfalso; rw [hA0', h] at cone; linarith
      have hyes : n.dot PA.n > n.dot PB.n := by
        have e1 : (ca * a.cross b) * n.dot PB.n = -(n.dot b) * PA.n.dot PB.n := by
          have : (ca * a.cross b) * n.dot PB.n = ca * ((a.cross b * n.x) * PB.n.x + (a.cross b * n.y) * PB.n.y) := by simp only [V2.dot]; ring
          rw [this, nx, ny, hA0', eA]; simp only [V2.dot, V2.scale]; ring
        have e2 : (ca * a.cross b) * n.dot PA.n = -(n.dot b) := by
          have : (ca * a.cross b) * n.dot PA.n = ca * ((a.cross b * n.x) * PA.n.x + (a.cross b * n.y) * PA.n.y) := by simp only [V2.dot]; ring
          rw [this, nx, ny, hA0']
          have : ca * ((-(n.dot b) * a.rperp.x + (0:K) * b.rperp.x) * PA.n.x + (-(n.dot b) * a.rperp.y + 0 * b.rperp.y) * PA.n.y) =
              -(n.dot b) * ((a.rperp.scale ca).x * PA.n.x + (a.rperp.scale ca).y * PA.n.y) := by simp only [V2.scale]; ring
          rw [this, ← eA]
          linear_combination -(n.dot b) * uA
        have : (ca * a.cross b) * n.dot PB.n < (ca * a.cross b) * n.dot PA.n := by
          rw [e1, e2]; exact mul_lt_of_lt_one_right hb' dotlt
        exact lt_of_mul_lt_mul_left this (mul_pos hca turn).le
      rw [if_pos hyes]
      exact Or.inl hw

/-- The facts about a support edge: its ends belong to the shape, it is passed with the shape on the left, and the farthest points along `n` are on it. -/
structure GoodEdge (s : Cls K) (n : V2 K) (e : Edge K) : Prop where
  ha : Core s e.ap
  hb : Core s e.bp
  hr : e.r = radiusOf s
  turn : (e.bp.sub e.ap).cross n < 0
  far : ∀ x, Core s x → (∀ y, Core s y → y.dot n ≤ x.dot n) → OnSegment e.ap e.bp x

theorem planeAt_inj {l : List (Plane K)} (hl : (l.map Plane.v0).Nodup) {i j : Nat} (hi : i < l.length) (hj : j < l.length)
    (h : (planeAt l i).v0 = (planeAt l j).v0) : i = j := by
  unfold planeAt at h
  rw [List.getD_eq_getElem?_getD, List.getD_eq_getElem?_getD, List.getElem?_eq_getElem hi, List.getElem?_eq_getElem hj, Option.getD_some,
    Option.getD_some] at h
  have := (List.Nodup.getElem_inj_iff hl (i := i) (j := j) (hi := by simpa using hi) (hj := by simpa using hj)).1 (by simpa using h)
  exact this

theorem poly_edge (inf : K) (hash : BitVec 64) (p : Poly K) {n : V2 K} (hn : n.lengthSq = 1) (he : Edged n (.poly p))
    (hinf : ∀ v ∈ p.world, -inf < v.v0.dot n) : GoodEdge (.poly p) n (p.supportEdge inf hash n) := by
  obtain ⟨ho, hu⟩ := he
  have h3 := ho.1
  have hl : p.world ≠ [] := by intro e; rw [e] at h3; simp at h3
  obtain ⟨hi, hmax⟩ := polySupportIndex_spec inf p.world n hl hinf
  obtain ⟨i, ei⟩ : ∃ i, i = polySupportIndex inf p.world n := ⟨_, rfl⟩
  rw [← ei] at hi hmax
  have hA := side_at p.world i hi
  have hB := side_next p.world i hi
  have hi0 : (i + p.world.length - 1) % p.world.length < p.world.length := Nat.mod_lt _ (by omega)
  have hi2 : (i + 1) % p.world.length < p.world.length := Nat.mod_lt _ (by omega)
  have hne : (planeAt p.world ((i + p.world.length - 1) % p.world.length)).v0 ≠ (planeAt p.world ((i + 1) % p.world.length)).v0 := by
    intro h
    have h := planeAt_inj ho.2.1 hi0 hi2 h
    rcases Nat.eq_zero_or_pos i with h0 | h0
    · subst h0
      rw [Nat.mod_eq_of_lt (by omega), Nat.mod_eq_of_lt (by omega)] at h; omega
    · rw [show i + p.world.length - 1 = (i - 1) + p.world.length by omega, Nat.add_mod_right, Nat.mod_eq_of_lt (by omega)] at h
      rcases (by omega : i + 1 < p.world.length ∨ i + 1 = p.world.length) with h1 | h1
      · rw [Nat.mod_eq_of_lt h1] at h; omega
      · rw [h1, Nat.mod_self] at h; omega
  have key := corner_sides ho hu hn hA hB rfl hne hmax
  have core : ∀ j, j < p.world.length → Core (.poly p) (planeAt p.world j).v0 :=
    fun j hj => Hull.vert _ (List.mem_map_of_mem (planeAt_mem _ _ hj))
  have far : ∀ (P Q : V2 K), (∀ w ∈ p.world, w.v0.dot n = (planeAt p.world i).v0.dot n → w.v0 = P ∨ w.v0 = Q) → ∀ x, Core (.poly p) x →
      (∀ y, Core (.poly p) y → y.dot n ≤ x.dot n) → OnSegment P Q x := by
    intro P Q h x hx hxm
    refine hull_face (l := p.world.map Plane.v0) (n := n) (m := (planeAt p.world i).v0.dot n) ?_ ?_ hx ?_
    · intro v hv
      obtain ⟨w, hw, rfl⟩ := List.mem_map.1 hv
      exact hmax w hw
    · intro v hv
      obtain ⟨w, hw, rfl⟩ := List.mem_map.1 hv
      exact h w hw
    · refine le_antisymm (hull_dot_le (p.world.map Plane.v0) n _ ?_ x hx) (hxm _ (core i hi))
      intro v hv
      obtain ⟨w, hw, rfl⟩ := List.mem_map.1 hv
      exact hmax w hw
  unfold Poly.supportEdge
  simp only [← ei]
  simp only at key
  split
  · rename_i hc
    rw [if_pos hc] at key
    exact ⟨core _ hi0, core _ hi, rfl, key.1, far _ _ key.2⟩
  · rename_i hc
    rw [if_neg hc] at key
    exact ⟨core _ hi, core _ hi2, rfl, key.1, far _ _ key.2⟩

theorem segment_edge (hash : BitVec 64) (s : Segment K) {n : V2 K} (he : Edged n (.segment s)) : GoodEdge (.segment s) n (s.supportEdge hash n) := by
  obtain ⟨h1, h2, h3, -, -⟩ := he
  have c0 : Core (.segment s) s.ta := ⟨0, le_rfl, zero_le_one, by simp [At]⟩
  have c1 : Core (.segment s) s.tb := ⟨1, zero_le_one, le_rfl, by simp [At]⟩
  -- the normal is a multiple of the direction turned to the right
  obtain ⟨d, ed⟩ : ∃ d, d = s.tb.sub s.ta := ⟨_, rfl⟩
  rw [← ed] at h1 h2
  have key : d.cross n * (d.cross s.tn) = d.lengthSq * (s.tn.dot n) := by
    have : d.cross n * (d.cross s.tn) = d.lengthSq * (s.tn.dot n) - (s.tn.dot d) * (d.dot n) := by
      simp only [V2.cross, V2.lengthSq, V2.dot]; ring
    rw [this, h1]; ring
  have hd : 0 < d.lengthSq := by
    have h0 : d ≠ V2.zero := by intro e; rw [e] at h2; simp [V2.cross, V2.zero] at h2
    have : d.lengthSq ≠ 0 := by
      intro h
      apply h0
      simp only [V2.lengthSq, V2.dot] at h
      ext <;> simp only [V2.zero] <;> nlinarith [mul_self_nonneg d.x, mul_self_nonneg d.y]
    have h : 0 ≤ d.lengthSq := by simp only [V2.lengthSq, V2.dot]; nlinarith [mul_self_nonneg d.x, mul_self_nonneg d.y]
    exact lt_of_le_of_ne h this.symm
  unfold Segment.supportEdge
  split
  · rename_i h
    refine ⟨c0, c1, rfl, ?_, fun x hx _ => hx⟩
    show (s.tb.sub s.ta).cross n < 0
    rw [← ed]
    by_contra hc
    have := mul_nonneg (not_lt.1 hc) (neg_nonneg.2 h2.le)
    have := mul_pos hd h
    linarith
  · rename_i h
    have h : s.tn.dot n < 0 := lt_of_le_of_ne (not_lt.1 h) h3
    refine ⟨c1, c0, rfl, ?_, ?_⟩
    · show (s.ta.sub s.tb).cross n < 0
      have : (s.ta.sub s.tb).cross n = -(d.cross n) := by rw [ed]; simp only [V2.cross, V2.sub]; ring
      rw [this]
      by_contra hc
      have := mul_nonneg (not_lt.1 hc) (neg_nonneg.2 h2.le)
      have := mul_pos hd (neg_pos.2 h)
      linarith
    · rintro x ⟨t, t0, t1, rfl⟩ _
      refine ⟨1 - t, by linarith, by linarith, ?_⟩
      simp only [At]; ext <;> simp only <;> ring

/-! ## The two blocks of `ContactPoints` -/

theorem lerp_dot (a b n : V2 K) (t : K) : (a.lerp b t).dot n = a.dot n + t * (b.dot n - a.dot n) := by
  simp only [V2.lerp, V2.dot, V2.add, V2.scale]; ring
theorem lerp_cross (a b n : V2 K) (t : K) : (a.lerp b t).cross n = a.cross n + t * (b.cross n - a.cross n) := by
  simp only [V2.lerp, V2.cross, V2.add, V2.scale]; ring
theorem lerp_at (a b : V2 K) (t : K) : a.lerp b t = At a b t := by
  ext <;> simp only [V2.lerp, V2.add, V2.scale, At] <;> ring


/-- Following a rising edge to the height `T`, stopping at its ends. -/
theorem walk_up {A B T : K} (h : A < B) : A + clamp01 ((T - A) * (1 / (B - A))) * (B - A) = max A (min T B) := by
  have hp : 0 < B - A := sub_pos.2 h
  unfold clamp01
  rw [mul_one_div, max_mul_of_nonneg _ _ hp.le, min_mul_of_nonneg _ _ hp.le, div_mul_cancel₀ _ hp.ne', ← max_add_add_left, ← min_add_add_left]
  congr 1
  · ring
  · congr 1 <;> ring

theorem walk_down {A B T : K} (h : B < A) : A + clamp01 ((T - A) * (1 / (B - A))) * (B - A) = min A (max T B) := by
  have := walk_up (A := -A) (B := -B) (T := -T) (neg_lt_neg h)
  have e : (-T - -A) * (1 / (-B - -A)) = (T - A) * (1 / (B - A)) := by
    rw [show -T - -A = -(T - A) by ring, show -B - -A = -(B - A) by ring, one_div_neg_eq_neg_one_div]; ring
  rw [e, min_neg_neg, max_neg_neg] at this
  linarith

/-- The contact points made by one block, when both edges are followed to the same place `T` along the surface. -/
structure Block (e1 e2 : Edge K) (n : V2 K) (c1 c2 T : K) : Prop where
  m1 : 0 ≤ c1 ∧ c1 ≤ 1
  m2 : 0 ≤ c2 ∧ c2 ≤ 1
  t1 : e1.ap.cross n + c1 * (e1.bp.cross n - e1.ap.cross n) = T
  t2 : e2.ap.cross n + c2 * (e2.bp.cross n - e2.ap.cross n) = T

/-- The gap between the skeletons at the parameters `c1` and `c2`. -/
def gapAt (e1 e2 : Edge K) (n : V2 K) (c1 c2 : K) : K := ((e2.ap.lerp e2.bp c2).sub (e1.ap.lerp e1.bp c1)).dot n

theorem contactAt_spec {s1 s2 : Cls K} {n : V2 K} (hn : n.lengthSq = 1) {e1 e2 : Edge K} (g1 : Core s1 e1.ap ∧ Core s1 e1.bp ∧ e1.r = radiusOf s1)
    (g2 : Core s2 e2.ap ∧ Core s2 e2.bp ∧ e2.r = radiusOf s2) {u1 u2 T : K} (hb : Block e1 e2 n (clamp01 u1) (clamp01 u2) T) (h : BitVec 64) :
    (∀ k ∈ contactAt n e1 e2 u1 u2 h, Touching s1 s2 n k ∧ (k.p2.sub k.p1).dot n = gapAt e1 e2 n (clamp01 u1) (clamp01 u2) - radiusOf s1 - radiusOf s2) ∧
    (gapAt e1 e2 n (clamp01 u1) (clamp01 u2) ≤ radiusOf s1 + radiusOf s2 → contactAt n e1 e2 u1 u2 h ≠ []) := by
  have core : ∀ (s : Cls K) (a b : V2 K) (t : K), Core s a → Core s b → 0 ≤ t → t ≤ 1 → Core s (a.lerp b t) := by
    intro s a b t ha hb h0 h1
    rw [core_hull] at *
    rw [lerp_at]
    exact Hull.mix _ _ _ ha hb h0 h1
  have ed : ((((n.scale (-e2.r)).add (e2.ap.lerp e2.bp (clamp01 u2))).sub ((n.scale e1.r).add (e1.ap.lerp e1.bp (clamp01 u1)))).dot n) =
      gapAt e1 e2 n (clamp01 u1) (clamp01 u2) - radiusOf s1 - radiusOf s2 := by
    rw [← g1.2.2, ← g2.2.2]
    have h' := hn
    simp only [V2.lengthSq, V2.dot] at h'
    unfold gapAt
    generalize e2.ap.lerp e2.bp (clamp01 u2) = y
    generalize e1.ap.lerp e1.bp (clamp01 u1) = x
    simp only [V2.dot, V2.sub, V2.add, V2.scale]
    linear_combination (-(e1.r) - e2.r) * h'
  constructor
  · intro k hk
    unfold contactAt at hk
    simp only at hk
    split at hk
    · rename_i hle
      rw [List.mem_singleton] at hk
      subst hk
      refine ⟨⟨⟨_, core _ _ _ _ g1.1 g1.2.1 hb.m1.1 hb.m1.2, ?_⟩, ⟨_, core _ _ _ _ g2.1 g2.2.1 hb.m2.1 hb.m2.2, ?_⟩, ?_, hle⟩, ed⟩
      · rw [← g1.2.2]; ext <;> simp only [V2.add] <;> ring
      · rw [← g2.2.2]; ext <;> simp only [V2.add, V2.sub, V2.scale] <;> ring
      · have c1 := lerp_cross e1.ap e1.bp n (clamp01 u1)
        have c2 := lerp_cross e2.ap e2.bp n (clamp01 u2)
        rw [hb.t1] at c1
        rw [hb.t2] at c2
        simp only
        generalize e2.ap.lerp e2.bp (clamp01 u2) = y at c2 ⊢
        generalize e1.ap.lerp e1.bp (clamp01 u1) = x at c1 ⊢
        simp only [V2.cross, V2.sub, V2.add, V2.scale] at c1 c2 ⊢
        linear_combination c2 - c1
    · simp at hk
  · intro hg
    unfold contactAt
    simp only
    rw [ed, if_pos (by linarith)]
    simp

/-- **C100 (for edges).** Two edges of two shapes, passed in opposite directions along `n`, carrying the two reported points: the contacts lie on the shapes and face each other, none is deeper
than the reported distance, and one is exactly so deep. -/
theorem C100_edges {s1 s2 : Cls K} {c : Closest K} (hx : Exact s1 s2 c) {e1 e2 : Edge K} (g1 : GoodEdge s1 c.n e1) (g2 : GoodEdge s2 c.n.neg e2)
    (tiny : K) (info : Info K) (hi : info.contacts = []) :
    (c.d ≤ radiusOf s1 + radiusOf s2 → (contactPoints tiny e1 e2 c info).n = c.n ∧
      (∀ k ∈ (contactPoints tiny e1 e2 c info).contacts, Touching s1 s2 c.n k ∧ c.d - radiusOf s1 - radiusOf s2 ≤ (k.p2.sub k.p1).dot c.n) ∧
      (∃ k ∈ (contactPoints tiny e1 e2 c info).contacts, (k.p2.sub k.p1).dot c.n = c.d - radiusOf s1 - radiusOf s2)) ∧
    (radiusOf s1 + radiusOf s2 < c.d → contactPoints tiny e1 e2 c info = info) := by
  have hn := hx.unit
  constructor
  · intro hd
    -- the reported points are farthest
    have hab : c.b.dot c.n = c.a.dot c.n + c.d := by
      have h1 := congrArg V2.x hx.along
      have h2 := congrArg V2.y hx.along
      simp only [V2.lengthSq, V2.dot, V2.sub, V2.scale] at h1 h2 hn ⊢
      linear_combination c.n.x * h1 + c.n.y * h2 + c.d * hn
    have hcr : c.b.cross c.n = c.a.cross c.n := by
      have h1 := congrArg V2.x hx.along
      have h2 := congrArg V2.y hx.along
      simp only [V2.cross, V2.sub, V2.scale] at h1 h2 ⊢
      linear_combination c.n.y * h1 - c.n.x * h2
    have dsub : ∀ x y : V2 K, (y.sub x).dot c.n = y.dot c.n - x.dot c.n := by intro x y; simp only [V2.dot, V2.sub]; ring
    have far1 : ∀ y, Core s1 y → y.dot c.n ≤ c.a.dot c.n := by
      intro y hy
      have := hx.least y c.b hy hx.snd
      rw [dsub] at this; linarith
    have dneg : ∀ y : V2 K, y.dot c.n.neg = -(y.dot c.n) := by intro y; simp only [V2.dot, V2.neg]; ring
    have cneg : ∀ y : V2 K, y.cross c.n.neg = -(y.cross c.n) := by intro y; simp only [V2.cross, V2.neg]; ring
    have far2 : ∀ y, Core s2 y → y.dot c.n.neg ≤ c.b.dot c.n.neg := by
      intro y hy
      have := hx.least c.a y hx.fst hy
      rw [dsub] at this
      rw [dneg, dneg]; linarith
    obtain ⟨ta, ta0, ta1, ea⟩ := g1.far c.a hx.fst far1
    obtain ⟨tb, tb0, tb1, eb⟩ := g2.far c.b hx.snd far2
    have csub : ∀ x y : V2 K, (y.sub x).cross c.n = y.cross c.n - x.cross c.n := by intro x y; simp only [V2.cross, V2.sub]; ring
    have D1 : e1.bp.cross c.n < e1.ap.cross c.n := by have := g1.turn; rw [csub] at this; linarith
    have D2 : e2.ap.cross c.n < e2.bp.cross c.n := by have := g2.turn; rw [cneg, csub] at this; linarith
    -- where the reported points are
    have pa : c.a.cross c.n = e1.ap.cross c.n + ta * (e1.bp.cross c.n - e1.ap.cross c.n) := by
      rw [← lerp_cross, lerp_at, ← ea]
    have pb : c.a.cross c.n = e2.ap.cross c.n + tb * (e2.bp.cross c.n - e2.ap.cross c.n) := by
      rw [← lerp_cross, lerp_at, ← eb, hcr]
    have ha : c.a.dot c.n = e1.ap.dot c.n + ta * (e1.bp.dot c.n - e1.ap.dot c.n) := by
      rw [← lerp_dot, lerp_at, ← ea]
    have hb : c.b.dot c.n = e2.ap.dot c.n + tb * (e2.bp.dot c.n - e2.ap.dot c.n) := by
      rw [← lerp_dot, lerp_at, ← eb]
    unfold contactPoints
    rw [if_neg (by rw [g1.hr, g2.hr]; exact not_lt.2 hd)]
    simp only [guardedInv, if_neg (sub_ne_zero.2 (ne_of_lt D1)), if_neg (sub_ne_zero.2 (ne_of_gt D2))]
    have least : ∀ c1 c2 : K, 0 ≤ c1 ∧ c1 ≤ 1 → 0 ≤ c2 ∧ c2 ≤ 1 → c.d ≤ gapAt e1 e2 c.n c1 c2 := by
      intro c1 c2 h1 h2
      refine hx.least _ _ ?_ ?_
      · rw [core_hull, lerp_at]; exact Hull.mix _ _ _ ((core_hull _ _).1 g1.ha) ((core_hull _ _).1 g1.hb) h1.1 h1.2
      · rw [core_hull, lerp_at]; exact Hull.mix _ _ _ ((core_hull _ _).1 g2.ha) ((core_hull _ _).1 g2.hb) h2.1 h2.2
    have gap : ∀ c1 c2 : K, gapAt e1 e2 c.n c1 c2 = (e2.ap.dot c.n + c2 * (e2.bp.dot c.n - e2.ap.dot c.n)) - (e1.ap.dot c.n + c1 * (e1.bp.dot c.n - e1.ap.dot c.n)) := by
      intro c1 c2
      unfold gapAt
      rw [dsub, lerp_dot, lerp_dot]
    have r1a : c.a.cross c.n ≤ e1.ap.cross c.n := by rw [pa]; nlinarith
    have r1b : e1.bp.cross c.n ≤ c.a.cross c.n := by rw [pa]; nlinarith
    have r2a : e2.ap.cross c.n ≤ c.a.cross c.n := by rw [pb]; nlinarith
    have r2b : c.a.cross c.n ≤ e2.bp.cross c.n := by rw [pb]; nlinarith
    have B1 : Block e1 e2 c.n (clamp01 ((e2.bp.cross c.n - e1.ap.cross c.n) * (1 / (e1.bp.cross c.n - e1.ap.cross c.n))))
        (clamp01 ((e1.ap.cross c.n - e2.ap.cross c.n) * (1 / (e2.bp.cross c.n - e2.ap.cross c.n)))) (min (e1.ap.cross c.n) (e2.bp.cross c.n)) := by
      refine ⟨clamp01_mem _, clamp01_mem _, ?_, ?_⟩
      · rw [walk_down D1, max_eq_left (r1b.trans r2b)]
      · rw [walk_up D2, max_eq_right (le_min (r2a.trans r1a) D2.le)]
    have B2 : Block e1 e2 c.n (clamp01 ((e2.ap.cross c.n - e1.ap.cross c.n) * (1 / (e1.bp.cross c.n - e1.ap.cross c.n))))
        (clamp01 ((e1.bp.cross c.n - e2.ap.cross c.n) * (1 / (e2.bp.cross c.n - e2.ap.cross c.n)))) (max (e1.bp.cross c.n) (e2.ap.cross c.n)) := by
      refine ⟨clamp01_mem _, clamp01_mem _, ?_, ?_⟩
      · rw [walk_down D1, max_comm, min_eq_right (max_le D1.le (r2a.trans r1a))]
      · rw [walk_up D2, min_eq_left (r1b.trans r2b), max_comm]
    have G1 : Core s1 e1.ap ∧ Core s1 e1.bp ∧ e1.r = radiusOf s1 := ⟨g1.ha, g1.hb, g1.hr⟩
    have G2 : Core s2 e2.ap ∧ Core s2 e2.bp ∧ e2.r = radiusOf s2 := ⟨g2.ha, g2.hb, g2.hr⟩
    have S1 := contactAt_spec hn G1 G2 B1 (Handlers.hashPair e1.ah e2.bh)
    have S2 := contactAt_spec hn G1 G2 B2 (Handlers.hashPair e1.bh e2.ah)
    obtain ⟨u1, eu1⟩ : ∃ u, u = (e2.bp.cross c.n - e1.ap.cross c.n) * (1 / (e1.bp.cross c.n - e1.ap.cross c.n)) := ⟨_, rfl⟩
    obtain ⟨u2, eu2⟩ : ∃ u, u = (e1.ap.cross c.n - e2.ap.cross c.n) * (1 / (e2.bp.cross c.n - e2.ap.cross c.n)) := ⟨_, rfl⟩
    obtain ⟨w1, ew1⟩ : ∃ u, u = (e2.ap.cross c.n - e1.ap.cross c.n) * (1 / (e1.bp.cross c.n - e1.ap.cross c.n)) := ⟨_, rfl⟩
    obtain ⟨w2, ew2⟩ : ∃ u, u = (e1.bp.cross c.n - e2.ap.cross c.n) * (1 / (e2.bp.cross c.n - e2.ap.cross c.n)) := ⟨_, rfl⟩
    rw [← eu1, ← eu2] at B1 S1
    rw [← ew1, ← ew2] at B2 S2
    rw [← eu1, ← eu2, ← ew1, ← ew2]
    have L1 := least _ _ B1.m1 B1.m2
    have L2 := least _ _ B2.m1 B2.m2
    refine ⟨trivial, ?_, ?_⟩
    · intro k hk
      rcases List.mem_append.1 hk with hk | hk
      · refine ⟨(S1.1 k hk).1, ?_⟩
        rw [(S1.1 k hk).2]; linarith
      · refine ⟨(S2.1 k hk).1, ?_⟩
        rw [(S2.1 k hk).2]; linarith
    · have hone : gapAt e1 e2 c.n (clamp01 u1) (clamp01 u2) = c.d ∨ gapAt e1 e2 c.n (clamp01 w1) (clamp01 w2) = c.d := by
        by_contra hc
        rw [not_or] at hc
        have l1 : c.d < gapAt e1 e2 c.n (clamp01 u1) (clamp01 u2) := lt_of_le_of_ne L1 (Ne.symm hc.1)
        have l2 : c.d < gapAt e1 e2 c.n (clamp01 w1) (clamp01 w2) := lt_of_le_of_ne L2 (Ne.symm hc.2)
        have hT1 : c.a.cross c.n ≤ min (e1.ap.cross c.n) (e2.bp.cross c.n) := le_min r1a r2b
        have hT2 : max (e1.bp.cross c.n) (e2.ap.cross c.n) ≤ c.a.cross c.n := max_le r1b r2a
        obtain ⟨T1, eT1⟩ : ∃ T, T = min (e1.ap.cross c.n) (e2.bp.cross c.n) := ⟨_, rfl⟩
        obtain ⟨T2, eT2⟩ : ∃ T, T = max (e1.bp.cross c.n) (e2.ap.cross c.n) := ⟨_, rfl⟩
        rw [← eT1] at hT1 B1
        rw [← eT2] at hT2 B2
        have d1 : e1.bp.cross c.n - e1.ap.cross c.n ≠ 0 := sub_ne_zero.2 (ne_of_lt D1)
        have d2 : e2.bp.cross c.n - e2.ap.cross c.n ≠ 0 := sub_ne_zero.2 (ne_of_gt D2)
        have par : ∀ {A D t T : K}, D ≠ 0 → A + t * D = T → t = (T - A) / D := by
          intro A D t T hD h
          rw [eq_div_iff hD]; linarith
        have hu1 := par d1 B1.t1
        have hu2 := par d2 B1.t2
        have hw1 := par d1 B2.t1
        have hw2 := par d2 B2.t2
        have hta := par d1 pa.symm
        have htb := par d2 pb.symm
        have lin : (T1 - T2) * c.d = (c.a.cross c.n - T2) * gapAt e1 e2 c.n (clamp01 u1) (clamp01 u2) +
            (T1 - c.a.cross c.n) * gapAt e1 e2 c.n (clamp01 w1) (clamp01 w2) := by
          have ed : c.d = (e2.ap.dot c.n + tb * (e2.bp.dot c.n - e2.ap.dot c.n)) - (e1.ap.dot c.n + ta * (e1.bp.dot c.n - e1.ap.dot c.n)) := by linarith
          rw [gap, gap, ed, hu1, hu2, hw1, hw2, hta, htb]
          field_simp
          ring
        rcases hT1.lt_or_eq with h | h
        · have := mul_lt_mul_of_pos_left l2 (sub_pos.2 h)
          have := mul_le_mul_of_nonneg_left l1.le (sub_nonneg.2 hT2)
          linarith
        · have e : gapAt e1 e2 c.n (clamp01 u1) (clamp01 u2) = c.d := by
            rw [gap, hu1, hu2, ← h, ← hta, ← htb]; linarith
          exact hc.1 e
      rcases hone with h | h
      · have hne := S1.2 (by rw [h]; exact hd)
        obtain ⟨k, l, e⟩ := List.exists_cons_of_ne_nil hne
        have hk : k ∈ contactAt c.n e1 e2 u1 u2 (Handlers.hashPair e1.ah e2.bh) := by rw [e]; simp
        exact ⟨k, List.mem_append_left _ hk, by rw [(S1.1 k hk).2, h]⟩
      · have hne := S2.2 (by rw [h]; exact hd)
        obtain ⟨k, l, e⟩ := List.exists_cons_of_ne_nil hne
        have hk : k ∈ contactAt c.n e1 e2 w1 w2 (Handlers.hashPair e1.bh e2.ah) := by rw [e]; simp
        exact ⟨k, List.mem_append_right _ hk, by rw [(S2.1 k hk).2, h]⟩
  · intro hd
    unfold contactPoints
    rw [if_pos (by rw [g1.hr, g2.hr]; exact hd)]

theorem edged_neg {n : V2 K} {s : Cls K} (h : Edged n s) : Edged n.neg s := by
  cases s with
  | circle c => exact h
  | segment g =>
    obtain ⟨h1, h2, h3, h4, h5⟩ := h
    refine ⟨h1, h2, fun e => h3 ?_, h4, h5⟩
    simp only [V2.dot, V2.neg] at e ⊢; linarith
  | poly p => exact h

theorem within_inf {B inf : K} {n : V2 K} (hn : n.lengthSq = 1) {s : Cls K} (hw : Within B s) (hB : 2 * B < inf) : ∀ v ∈ corners s, -inf < v.dot n := by
  intro v hv
  obtain ⟨a, b⟩ := hw v hv
  simp only [V2.lengthSq, V2.dot] at hn
  have nx : |n.x| ≤ 1 := by rw [abs_le]; constructor <;> nlinarith [mul_self_nonneg n.x, mul_self_nonneg n.y]
  have ny : |n.y| ≤ 1 := by rw [abs_le]; constructor <;> nlinarith [mul_self_nonneg n.x, mul_self_nonneg n.y]
  have e1 : |v.x * n.x| ≤ B := by
    rw [abs_mul]
    calc |v.x| * |n.x| ≤ |v.x| * 1 := mul_le_mul_of_nonneg_left nx (abs_nonneg _)
      _ ≤ B := by linarith
  have e2 : |v.y * n.y| ≤ B := by
    rw [abs_mul]
    calc |v.y| * |n.y| ≤ |v.y| * 1 := mul_le_mul_of_nonneg_left ny (abs_nonneg _)
      _ ≤ B := by linarith
  have := neg_abs_le (v.x * n.x)
  have := neg_abs_le (v.y * n.y)
  simp only [V2.dot]
  linarith

theorem unit_neg_len {n : V2 K} (hn : n.lengthSq = 1) : n.neg.lengthSq = 1 := by
  simp only [V2.lengthSq, V2.dot, V2.neg] at hn ⊢; linarith

/-- The support edge of a rod or polygon. -/
def Cls.edge (inf : K) (hash : BitVec 64) (n : V2 K) : Cls K → Edge K
  | .circle c => ⟨c.tc, hash, c.tc, hash, c.radius, n⟩
  | .segment s => s.supportEdge hash n
  | .poly p => p.supportEdge inf hash n

/-- A rod without neighbours, or a polygon. -/
def Spec.Alone : Cls K → Prop
  | .circle _ => False
  | .segment s => s.aTangent = V2.zero ∧ s.bTangent = V2.zero
  | .poly _ => True

/-- What is said of the contacts made from the two support edges. -/
def Spec.EdgesMeet (s1 s2 : Cls K) (c : Closest K) (e1 e2 : Edge K) (tiny : K) : Prop := ∀ info : Info K, info.contacts = [] →
  c.d ≤ radiusOf s1 + radiusOf s2 → (contactPoints tiny e1 e2 c info).n = c.n ∧
      (∀ k ∈ (contactPoints tiny e1 e2 c info).contacts, Touching s1 s2 c.n k ∧ c.d - radiusOf s1 - radiusOf s2 ≤ (k.p2.sub k.p1).dot c.n) ∧
      (∃ k ∈ (contactPoints tiny e1 e2 c info).contacts, (k.p2.sub k.p1).dot c.n = c.d - radiusOf s1 - radiusOf s2)

theorem contacts_by_edges (M : Mth K) (inf tiny : K) (a b : CShape K) (hord : a.cls.order ≤ b.cls.order) (info : Info K) (hi : info.contacts = [])
    (c : Closest K) (hc : c = (gjk M inf ⟨a.cls, b.cls, a.bb, b.bb⟩ info.id).1) (h1 : Alone a.cls) (h2 : Alone b.cls)
    (hk : EdgesMeet a.cls b.cls c (a.cls.edge inf a.hash c.n) (b.cls.edge inf b.hash c.n.neg) tiny) :
    ∃ I, collideSorted M inf tiny a b info = some I ∧
      (c.d ≤ radiusOf a.cls + radiusOf b.cls → I.n = c.n ∧
        (∀ k ∈ I.contacts, Touching a.cls b.cls c.n k ∧ c.d - radiusOf a.cls - radiusOf b.cls ≤ (k.p2.sub k.p1).dot c.n) ∧
        (∃ k ∈ I.contacts, (k.p2.sub k.p1).dot c.n = c.d - radiusOf a.cls - radiusOf b.cls)) ∧
      (radiusOf a.cls + radiusOf b.cls < c.d → I.contacts = []) := by
  obtain ⟨ac, abb, ah, ar⟩ := a
  obtain ⟨bc, bbb, bh, br⟩ := b
  simp only at *
  have k1 := hk { info with id := c.id } hi
  have zero : ∀ (v r : V2 K), v = V2.zero → c.n.dot (v.rotate r) = 0 := by rintro v r rfl; simp [V2.dot, V2.rotate, V2.zero]
  cases ac with
  | circle _ => exact h1.elim
  | segment s =>
    cases bc with
    | circle _ => exact h2.elim
    | segment s' =>
      refine ⟨_, rfl, ?_, ?_⟩
      · intro hd
        unfold segmentToSegment
        simp only [← hc]
        rw [if_neg (show ¬ c.d > s.radius + s'.radius from not_lt.2 hd), if_pos ⟨Or.inr (zero _ _ h1.1).le, Or.inr (zero _ _ h1.2).le, Or.inr (zero _ _ h2.1).ge, Or.inr (zero _ _ h2.2).ge⟩]
        exact k1 hd
      · intro hd
        unfold segmentToSegment
        simp only [← hc]
        rw [if_pos (show c.d > s.radius + s'.radius from hd)]
        exact hi
    | poly p =>
      refine ⟨_, rfl, ?_, ?_⟩
      · intro hd
        unfold segmentToPoly
        simp only [← hc]
        simp only [radiusOf] at hd
        rw [if_pos ⟨by linarith, Or.inr (zero _ _ h1.1).le, Or.inr (zero _ _ h1.2).le⟩]
        exact k1 hd
      · intro hd
        unfold segmentToPoly
        simp only [← hc]
        simp only [radiusOf] at hd
        rw [if_neg (fun h => by linarith [h.1])]
        exact hi
  | poly p =>
    cases bc with
    | circle _ => exact h2.elim
    | segment _ => simp [Cls.order] at hord
    | poly q =>
      refine ⟨_, rfl, ?_, ?_⟩
      · intro hd
        unfold polyToPoly
        simp only [← hc]
        simp only [radiusOf] at hd
        rw [if_pos (by linarith)]
        exact k1 hd
      · intro hd
        unfold polyToPoly
        simp only [← hc]
        simp only [radiusOf] at hd
        rw [if_neg (by linarith)]
        exact hi

theorem edged_alone {n : V2 K} {s : Cls K} (h : Edged n s) : Alone s := by
  cases s with
  | circle c => exact h
  | segment g => exact h.2.2.2
  | poly p => trivial

theorem edged_edge (inf B : K) (hash : BitVec 64) {n : V2 K} (hn : n.lengthSq = 1) {s : Cls K} (h : Edged n s) (hw : Within B s) (hB : 2 * B < inf) :
    GoodEdge s n (s.edge inf hash n) := by
  cases s with
  | circle c => exact h.elim
  | segment g => exact segment_edge hash g h
  | poly p => exact poly_edge inf hash p hn h (fun v hv => within_inf hn hw hB v.v0 (List.mem_map_of_mem hv))

/-- **C100.** Rods and polygons, in the order in which the code handles them, whose closest-point search gave a true answer. If the skeletons are farther apart than the radii nothing is
reported. Otherwise the normal is the one found, every contact is made of a point of each skeleton moved by the radius towards the other shape, the two points of a contact face each other, no
contact shows a gap or is deeper than the shapes overlap, and one contact shows exactly how deep the shapes overlap. -/
theorem C100_contacts (M : Mth K) (inf tiny B : K) (a b : CShape K) (hord : a.cls.order ≤ b.cls.order) (info : Info K) (hi : info.contacts = [])
    (hw1 : Within B a.cls) (hw2 : Within B b.cls) (hB : 2 * B < inf) (c : Closest K) (hc : c = (gjk M inf ⟨a.cls, b.cls, a.bb, b.bb⟩ info.id).1)
    (hx : Exact a.cls b.cls c) (he1 : Edged c.n a.cls) (he2 : Edged c.n b.cls) :
    ∃ I, collideSorted M inf tiny a b info = some I ∧
      (c.d ≤ radiusOf a.cls + radiusOf b.cls → I.n = c.n ∧
        (∀ k ∈ I.contacts, Touching a.cls b.cls c.n k ∧ c.d - radiusOf a.cls - radiusOf b.cls ≤ (k.p2.sub k.p1).dot c.n) ∧
        (∃ k ∈ I.contacts, (k.p2.sub k.p1).dot c.n = c.d - radiusOf a.cls - radiusOf b.cls)) ∧
      (radiusOf a.cls + radiusOf b.cls < c.d → I.contacts = []) :=
  contacts_by_edges M inf tiny a b hord info hi c hc (edged_alone he1) (edged_alone he2) fun I hI =>
    (C100_edges hx (edged_edge inf B a.hash hx.unit he1 hw1 hB) (edged_edge inf B b.hash (unit_neg_len hx.unit) (edged_neg he2) hw2 hB) tiny I hI).1

/-! ## When the search gives a true answer -/

/-- The nearest point of a convex set to the origin bounds the set along its direction. -/
theorem nearest_bounds {P : V2 K → Prop} (hP : ∀ x y t, P x → P y → 0 ≤ t → t ≤ 1 → P (At x y t)) {z : V2 K} (hz : P z)
    (hmin : ∀ w, P w → z.lengthSq ≤ w.lengthSq) {w : V2 K} (hw : P w) : z.lengthSq ≤ z.dot w := by
  by_contra hc
  have hc := not_le.1 hc
  have hmin' : ∀ t, 0 ≤ t → t ≤ 1 → 0 ≤ 2 * t * (z.dot w - z.lengthSq) + t ^ 2 * (w.sub z).lengthSq := by
    intro t h0 h1
    have := hmin _ (hP z w t hz hw h0 h1)
    have e : (At z w t).lengthSq = z.lengthSq + (2 * t * (z.dot w - z.lengthSq) + t ^ 2 * (w.sub z).lengthSq) := by
      simp only [At, V2.lengthSq, V2.dot, V2.sub]; ring
    linarith
  obtain ⟨q, eq⟩ : ∃ q, q = z.lengthSq - z.dot w := ⟨_, rfl⟩
  obtain ⟨L, eL⟩ : ∃ L, L = (w.sub z).lengthSq := ⟨_, rfl⟩
  have hq : 0 < q := by linarith
  have hL0 : 0 ≤ L := by rw [eL]; simp only [V2.lengthSq, V2.dot]; nlinarith [mul_self_nonneg (w.sub z).x, mul_self_nonneg (w.sub z).y]
  rw [← eL] at hmin'
  have hmin2 : ∀ t, 0 ≤ t → t ≤ 1 → 0 ≤ t * (t * L - 2 * q) := by
    intro t h0 h1
    have := hmin' t h0 h1
    have e : z.dot w - z.lengthSq = -q := by linarith
    rw [e] at this
    linarith [show 2 * t * -q + t ^ 2 * L = t * (t * L - 2 * q) by ring]
  rcases le_total L q with h | h
  · have := hmin2 1 zero_le_one le_rfl
    linarith
  · have hL : 0 < L := hq.trans_le h
    have ht : 0 < q / L := div_pos hq hL
    have := hmin2 (q / L) ht.le ((div_le_one hL).2 h)
    rw [div_mul_cancel₀ _ hL.ne'] at this
    have := mul_pos ht hq
    linarith

/-- **C100.** The search gave a true answer when GJK stopped by itself with the shapes apart. -/
theorem C100_apart {M : Mth K} (hM : M.Lawful) (inf B : K) (ctx : Ctx K) (hs : Solid ctx) (hw1 : Within B ctx.s1) (hw2 : Within B ctx.s2)
    (hinf : 8 * (B * B) < inf) (id : Nat) (c : Closest K) (hstop : gjk M inf ctx id = (c, .gjkDone)) (hd : c.d ≠ 0) : Exact ctx.s1 ctx.s2 c ∧ 0 < c.d := by
  obtain ⟨p1, p2, p3, p4⟩ := C45_points hM inf ctx hs id
  rw [hstop] at p1 p2 p3 p4
  simp only at p1 p2 p3 p4
  obtain ⟨q1, q2⟩ := C45_gjk_partial hM inf B ctx hs hw1 hw2 hinf id c hstop
  have q2 := q2.resolve_right hd
  have hn : c.n.lengthSq = 1 := p4.resolve_right (fun h => hd h.2)
  have hpos : 0 < c.d := lt_of_le_of_ne (by rw [q2.1]; exact hM.sqrt_nonneg _ (by simp only [dist2]; positivity)) (Ne.symm hd)
  refine ⟨⟨p1, p2, hn, q2.2, fun x y hx hy => ?_⟩, hpos⟩
  have key := nearest_bounds (P := InDiff ctx.s1 ctx.s2) (fun x y t hx hy h0 h1 => inDiff_mix _ _ x y hx hy t h0 h1) (z := c.b.sub c.a) ⟨_, _, p1, p2, rfl⟩
    (by
      rintro w ⟨a', b', ha', hb', rfl⟩
      have := q1 a' b' ha' hb'
      rw [dist_le_dist hM] at this
      simp only [dist2, V2.lengthSq, V2.dot, V2.sub] at this ⊢
      nlinarith) (w := y.sub x) ⟨_, _, hx, hy, rfl⟩
  rw [q2.2] at key
  have e1 : (c.n.scale c.d).lengthSq = c.d * (c.d * c.n.lengthSq) := by simp only [V2.lengthSq, V2.dot, V2.scale]; ring
  have e2 : (c.n.scale c.d).dot (y.sub x) = c.d * (y.sub x).dot c.n := by simp only [V2.dot, V2.scale]; ring
  rw [e1, e2, hn, mul_one] at key
  exact le_of_mul_le_mul_left key hpos

/-- **C100.** The search gave a true answer when EPA stopped by itself with a normal. -/
theorem C100_inside {M : Mth K} (hM : M.Lawful) (inf B : K) (ctx : Ctx K) (hs : Solid ctx) (hw1 : Within B ctx.s1) (hw2 : Within B ctx.s2)
    (hinf : 8 * (B * B) < inf) (hc1 : (corners ctx.s1).length ≤ 256) (hc2 : (corners ctx.s2).length ≤ 256)
    (id : Nat) (c : Closest K) (hstop : gjk M inf ctx id = (c, .epaDone)) (hn : c.n ≠ V2.zero) :
    Exact ctx.s1 ctx.s2 c ∧ c.d ≤ 0 := by
  obtain ⟨p1, p2, p3, p4⟩ := C45_points hM inf ctx hs id
  rw [hstop] at p1 p2 p3 p4
  obtain ⟨-, q1, q2, q3⟩ := C45_epa hM inf B ctx hs hw1 hw2 hinf hc1 hc2 id c hstop
  exact ⟨⟨p1, p2, p4.resolve_right (fun h => hn h.1), C101_foot hM inf B ctx hs hw1 hw2 hinf hc1 hc2 id c hstop hn, q2⟩, q1⟩

/-- **C100.** What the constructors make has the edges asked for: a box of positive size. -/
theorem C100_box {M : Mth K} (hM : M.Lawful) (inf : K) (t : Transform K) (ht : Rigid t) (w h r : K) (hw : 0 < w) (hh : 0 < h) (n : V2 K) :
    Edged n (.poly ((newBox M w h r).cache inf t).1) :=
  ⟨(C95_box hM inf t ht w h r hw hh).1, (C95_box hM inf t ht w h r hw hh).2.1⟩

/-- **C100.** What the constructors make has the edges asked for: a rod with different ends, seen from anywhere but its ends. -/
theorem C100_rod {M : Mth K} (hM : M.Lawful) (t : Transform K) (ht : Rigid t) (a b : V2 K) (hab : a ≠ b) (r : K) (n : V2 K)
    (hn : ((t.apply b).sub (t.apply a)).cross n ≠ 0) : Edged n (.segment ((Segment.new M a b r).cache t).1) := by
  obtain ⟨h1, h2, h3, -, -, h6, h7⟩ := C95_segment hM t ht a b hab r
  refine ⟨by rw [h1, h2]; exact h6, by rw [h1, h2]; exact h7, ?_, rfl, rfl⟩
  intro h0
  generalize ((Segment.new M a b r).cache t).1.tn = m at *
  generalize (t.apply b).sub (t.apply a) = d at *
  have key : d.cross n * (d.cross m) = d.lengthSq * (m.dot n) - (m.dot d) * (d.dot n) := by
    simp only [V2.cross, V2.lengthSq, V2.dot]; ring
  rw [h0, h6, mul_zero, zero_mul, sub_zero] at key
  rcases mul_eq_zero.1 key with h | h
  · exact hn h
  · rw [h] at h7; exact lt_irrefl _ h7

/-! ## Examples -/

/-- It is enough to compare the corners. -/
theorem least_corners {s1 s2 : Cls K} {n : V2 K} {d : K} (h : ∀ v ∈ corners s1, ∀ w ∈ corners s2, d ≤ (w.sub v).dot n) (x y : V2 K) (hx : Core s1 x) (hy : Core s2 y) :
    d ≤ (y.sub x).dot n := by
  have dsub : ∀ x y : V2 K, (y.sub x).dot n = y.dot n - x.dot n := by intro x y; simp only [V2.dot, V2.sub]; ring
  have h1 : ∀ w ∈ corners s2, x.dot n ≤ w.dot n - d := by
    intro w hw
    refine hull_dot_le _ n _ ?_ x ((core_hull _ _).1 hx)
    intro v hv
    have := h v hv w hw
    rw [dsub] at this; linarith
  have dneg : ∀ y : V2 K, y.dot n.neg = -(y.dot n) := by intro y; simp only [V2.dot, V2.neg]; ring
  have h2 : y.dot n.neg ≤ -(x.dot n + d) := by
    refine hull_dot_le _ n.neg _ ?_ y ((core_hull _ _).1 hy)
    intro w hw
    have := h1 w hw
    rw [dneg]; linarith
  rw [dneg] at h2
  rw [dsub]; linarith

/-- Two rounded boxes, the second a little above the right half of the first. -/
def exLow : Cls ℚ := .poly ((newBox gridMth 4 2 (1/2)).cache 1000 ⟨1, 0, 0, 1, 0, 0⟩).1
def exHigh : Cls ℚ := .poly ((newBox gridMth 4 2 (1/2)).cache 1000 ⟨1, 0, 0, 1, 3, 5/2⟩).1
def exPair : CShape ℚ × CShape ℚ := (⟨exLow, ⟨-5/2, -3/2, 5/2, 3/2⟩, 1, ⟨1, 0⟩⟩, ⟨exHigh, ⟨1/2, 1, 11/2, 4⟩, 2, ⟨1, 0⟩⟩)

/-- The planes of a box of width 4 and height 2 round a point. -/
def exPlanes (x y : ℚ) : List (Plane ℚ) := [⟨⟨x + 2, y - 1⟩, ⟨0, -1⟩⟩, ⟨⟨x + 2, y + 1⟩, ⟨1, 0⟩⟩, ⟨⟨x - 2, y + 1⟩, ⟨0, 1⟩⟩, ⟨⟨x - 2, y - 1⟩, ⟨-1, 0⟩⟩]

theorem exPlanes_edged (x y : ℚ) (n : V2 ℚ) (p : Poly ℚ) (hp : p.world = exPlanes x y) : Edged n (.poly p) := by
  refine ⟨?_, ?_⟩
  · rw [hp]
    refine ⟨by simp [exPlanes], ?_, ?_⟩
    · have h1 : x + 2 ≠ x - 2 := by intro h; linarith
      have h2 : y - 1 ≠ y + 1 := by intro h; linarith
      simp [exPlanes, h1, h2, h1.symm, h2.symm]
    · intro s hs
      simp only [exPlanes, sides, sidesFrom, List.getLastD_cons, List.getLastD_nil, List.mem_cons, List.not_mem_nil, or_false] at hs
      rcases hs with rfl | rfl | rfl | rfl
      all_goals
        refine ⟨?_, ?_⟩
        · first
            | (refine ⟨1/4, by norm_num, ?_⟩; ext <;> simp only [V2.sub, V2.rperp, V2.scale] <;> linarith)
            | (refine ⟨1/2, by norm_num, ?_⟩; ext <;> simp only [V2.sub, V2.rperp, V2.scale] <;> linarith)
        · intro w hw
          simp only [exPlanes, List.mem_cons, List.not_mem_nil, or_false] at hw
          rcases hw with rfl | rfl | rfl | rfl
          all_goals first
            | exact Or.inl rfl
            | exact Or.inr (Or.inl rfl)
            | (right; right; simp only [V2.dot, V2.sub]; linarith)
  · rw [hp]
    intro pl hpl
    simp only [exPlanes, List.mem_cons, List.not_mem_nil, or_false] at hpl
    rcases hpl with rfl | rfl | rfl | rfl <;> norm_num

/-- The hypotheses of `C100_contacts` (and the stop of `C100_apart`): the search stops by itself with distance 1/2. -/
example : ∃ c, gjk gridMth 1000 ⟨exLow, exHigh, exPair.1.bb, exPair.2.bb⟩ 0 = (c, .gjkDone) ∧ c.d = 1/2 ∧ Exact exLow exHigh c ∧ Edged c.n exLow ∧ Edged c.n exHigh ∧
    Within 10 exLow ∧ Within 10 exHigh ∧ exPair.1.cls.order ≤ exPair.2.cls.order := by
  refine ⟨⟨⟨3/2, 1⟩, ⟨3/2, 3/2⟩, ⟨0, 1⟩, 1/2, 33554691⟩, by decide +kernel, rfl, ⟨?_, ?_, by norm_num [V2.lengthSq, V2.dot], by decide +kernel, ?_⟩, ?_, ?_, ?_, ?_, le_rfl⟩
  · rw [show (⟨3/2, 1⟩ : V2 ℚ) = At ⟨2, 1⟩ ⟨-2, 1⟩ (1/8) by decide +kernel]
    exact Hull.mix _ _ _ (Hull.vert _ (by decide +kernel)) (Hull.vert _ (by decide +kernel)) (by norm_num) (by norm_num)
  · rw [show (⟨3/2, 3/2⟩ : V2 ℚ) = At ⟨1, 3/2⟩ ⟨5, 3/2⟩ (1/8) by decide +kernel]
    exact Hull.mix _ _ _ (Hull.vert _ (by decide +kernel)) (Hull.vert _ (by decide +kernel)) (by norm_num) (by norm_num)
  · exact least_corners (by decide +kernel)
  · exact exPlanes_edged 0 0 _ _ (by decide +kernel)
  · exact exPlanes_edged 3 (5/2) _ _ (by decide +kernel)
  · unfold Within; decide +kernel
  · unfold Within; decide +kernel

/-- The contacts of the two boxes: at both ends of the stretch where they face each other, each half a unit deep. -/
example : (collide gridMth 1000 (1/1000) exPair.1 exPair.2 0).map (fun i => (i.n, i.contacts.map fun k => (k.p1, k.p2))) =
    some (⟨0, 1⟩, [(⟨2, 3/2⟩, ⟨2, 1⟩), (⟨1, 3/2⟩, ⟨1, 1⟩)]) := by
  decide +kernel

/-- The hypotheses of `C100_rod` and `C100_box` with real square roots. -/
example (n : V2 ℝ) (hn : n.y ≠ 0) : Edged n (.segment ((Segment.new realMth ⟨0, 0⟩ ⟨1, 0⟩ 1).cache ⟨1, 0, 0, 1, 3, 4⟩).1) ∧
    Edged n (.poly ((newBox realMth 2 1 0).cache 1000 ⟨1, 0, 0, 1, 3, 4⟩).1) :=
  ⟨C100_rod realMth_lawful _ ⟨by norm_num, by norm_num, rfl⟩ _ _ (by simp) _ _ (by simpa [V2.cross, V2.sub, Transform.apply] using hn),
    C100_box realMth_lawful _ _ ⟨by norm_num, by norm_num, rfl⟩ _ _ _ (by norm_num) (by norm_num) _⟩

end Cm
