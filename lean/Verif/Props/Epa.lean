import Verif.Props.Gjk
/-! # C101: EPA finds the shortest way to part two shapes -/
set_option linter.unusedSectionVars false
set_option linter.unusedSimpArgs false
set_option linter.unusedVariables false

namespace Cm
open Spec
variable {K : Type} [Field K] [LinearOrder K] [IsStrictOrderedRing K]

namespace Spec
/-- The skeletons have a common point after the second is moved by `v`. -/
def Meet (s1 s2 : Cls K) (v : V2 K) : Prop := ∃ x y, Core s1 x ∧ Core s2 y ∧ x = y.add v
end Spec

/-! ## Counting how often a closed chain goes round the origin

The chain of EPA runs clockwise. For a ray `u` every edge crossing it clockwise counts 1 and every edge crossing it the other way counts -1. -/

/-- The count of one edge at the ray `u`. -/
def crossing (u x y : V2 K) : Int :=
  if x.cross u ≤ 0 ∧ 0 < y.cross u ∧ 0 < y.cross x then 1
  else if 0 < x.cross u ∧ y.cross u ≤ 0 ∧ y.cross x < 0 then -1 else 0

/-- The count of the path from `a` through the points of a list. -/
def pathCount (u : V2 K) : V2 K → List (V2 K) → Int
  | _, [] => 0
  | a, b :: l => crossing u a b + pathCount u b l

/-- The count of a closed chain. -/
def ringCount (u : V2 K) : List (V2 K) → Int
  | [] => 0
  | a :: l => pathCount u a (l ++ [a])

theorem crossing_anti (u x y : V2 K) : crossing u y x = - crossing u x y := by
  have e : x.cross y = -(y.cross x) := by simp only [V2.cross]; ring
  unfold crossing
  rw [e]
  simp only [Left.neg_neg_iff, Left.neg_pos_iff]
  by_cases h1 : 0 < x.cross u <;> by_cases h2 : 0 < y.cross u <;> by_cases h3 : 0 < y.cross x <;> by_cases h4 : y.cross x < 0
  all_goals first
    | (exfalso; linarith)
    | simp [h1, h2, h3, h4, not_le.2, le_of_not_gt, not_lt.1, lt_irrefl]

/-- A triangle passed clockwise (or flat) does not count against. -/
theorem crossing_triangle (u a b c : V2 K) (h : 0 ≤ b.cross a + c.cross b + a.cross c) :
    0 ≤ crossing u a b + crossing u b c + crossing u c a := by
  have key : ∀ a b c : V2 K, 0 ≤ b.cross a + c.cross b + a.cross c →
      (b.cross a) * (c.cross u - a.cross u) + (a.cross c) * (b.cross u - a.cross u) = -(a.cross u) * (b.cross a + c.cross b + a.cross c) := by
    intro a b c _; simp only [V2.cross]; ring
  -- one corner on one side, two on the other
  have low : ∀ a b c : V2 K, 0 ≤ b.cross a + c.cross b + a.cross c → a.cross u ≤ 0 → 0 < b.cross u → 0 < c.cross u →
      0 ≤ crossing u a b + crossing u b c + crossing u c a := by
    intro a b c h ha hb hc
    have k := key a b c h
    have e1 : crossing u b c = 0 := by
      unfold crossing; rw [if_neg (fun h => absurd h.1 (not_le.2 hb)), if_neg (fun h => absurd h.2.1 (not_le.2 hc))]
    have e2 : crossing u a b = if 0 < b.cross a then 1 else 0 := by
      unfold crossing; simp [ha, hb, not_lt.2 ha]
    have e3 : crossing u c a = if a.cross c < 0 then -1 else 0 := by
      unfold crossing; simp [ha, hc, not_le.2 hc]
    rw [e1, e2, e3]
    have nn : 0 ≤ -(a.cross u) * (b.cross a + c.cross b + a.cross c) := mul_nonneg (by linarith) h
    by_cases h1 : a.cross c < 0
    · have : 0 < b.cross a := by
        by_contra hn
        have := mul_nonneg (neg_nonneg.2 (not_lt.1 hn)) (by linarith : 0 ≤ c.cross u - a.cross u)
        have := mul_pos (neg_pos.2 h1) (by linarith : 0 < b.cross u - a.cross u)
        linarith
      simp [h1, this]
    · split <;> simp [h1]
  have high : ∀ a b c : V2 K, 0 ≤ b.cross a + c.cross b + a.cross c → 0 < a.cross u → b.cross u ≤ 0 → c.cross u ≤ 0 →
      0 ≤ crossing u a b + crossing u b c + crossing u c a := by
    intro a b c h ha hb hc
    have k := key a b c h
    have e1 : crossing u b c = 0 := by
      unfold crossing; rw [if_neg (fun h => absurd h.2.1 (not_lt.2 hc)), if_neg (fun h => absurd h.1 (not_lt.2 hb))]
    have e2 : crossing u a b = if b.cross a < 0 then -1 else 0 := by
      unfold crossing; simp [ha, hb, not_le.2 ha]
    have e3 : crossing u c a = if 0 < a.cross c then 1 else 0 := by
      unfold crossing; simp [ha, hc, not_lt.2 hc]
    rw [e1, e2, e3]
    have nn : 0 ≤ (a.cross u) * (b.cross a + c.cross b + a.cross c) := mul_nonneg ha.le h
    by_cases h1 : b.cross a < 0
    · have : 0 < a.cross c := by
        by_contra hn
        have := mul_nonneg (neg_nonneg.2 (not_lt.1 hn)) (by linarith : 0 ≤ a.cross u - b.cross u)
        have := mul_pos (neg_pos.2 h1) (by linarith : 0 < a.cross u - c.cross u)
        linarith
      simp [h1, this]
    · rw [if_neg h1]; split <;> simp
  have flat1 : ∀ x y : V2 K, 0 < x.cross u → 0 < y.cross u → crossing u x y = 0 := by
    intro x y hx hy
    unfold crossing; rw [if_neg (fun h => absurd h.1 (not_le.2 hx)), if_neg (fun h => absurd h.2.1 (not_le.2 hy))]
  have flat0 : ∀ x y : V2 K, x.cross u ≤ 0 → y.cross u ≤ 0 → crossing u x y = 0 := by
    intro x y hx hy
    unfold crossing; rw [if_neg (fun h => absurd h.2.1 (not_lt.2 hy)), if_neg (fun h => absurd h.1 (not_lt.2 hx))]
  rcases le_or_gt (a.cross u) 0 with ha | ha <;> rcases le_or_gt (b.cross u) 0 with hb | hb <;> rcases le_or_gt (c.cross u) 0 with hc | hc
  · rw [flat0 a b ha hb, flat0 b c hb hc, flat0 c a hc ha]; simp
  · have := high c a b (by linarith) hc ha hb; linarith
  · have := high b c a (by linarith) hb hc ha; linarith
  · exact low a b c h ha hb hc
  · exact high a b c h ha hb hc
  · have := low b c a (by linarith) hb hc ha; linarith
  · have := low c a b (by linarith) hc ha hb; linarith
  · rw [flat1 a b ha hb, flat1 b c hb hc, flat1 c a hc ha]; simp

theorem pathCount_append (u : V2 K) (l m : List (V2 K)) : ∀ a, pathCount u a (l ++ m) = pathCount u a l + pathCount u ((a :: l).getLast (by simp)) m := by
  induction l with
  | nil => intro a; simp [pathCount]
  | cons b l ih => intro a; simp only [List.cons_append, pathCount, ih b]; rw [List.getLast_cons (l := b :: l) (List.cons_ne_nil b l)]; ring

theorem ringCount_rotate_one (u : V2 K) (l : List (V2 K)) : ringCount u (l.rotate 1) = ringCount u l := by
  cases l with
  | nil => rfl
  | cons a l =>
    rw [List.rotate_cons_succ, List.rotate_zero]
    cases l with
    | nil => rfl
    | cons b l =>
      simp only [List.cons_append, ringCount, pathCount]
      rw [pathCount_append u (l ++ [a]) [b]]
      simp only [pathCount]
      have : (b :: (l ++ [a])).getLast (by simp) = a := by simp
      rw [this]; ring

theorem ringCount_rotate (u : V2 K) (l : List (V2 K)) (n : Nat) : ringCount u (l.rotate n) = ringCount u l := by
  induction n with
  | zero => simp
  | succ n ih => rw [← List.rotate_rotate, ringCount_rotate_one, ih]

/-- Where the count is positive an edge crosses the ray. -/
theorem path_crosses (u : V2 K) (l : List (V2 K)) : ∀ a, 0 < pathCount u a l → ∃ (i : Nat) (x y : V2 K), (a :: l)[i]? = some x ∧ l[i]? = some y ∧ crossing u x y = 1 := by
  induction l with
  | nil => intro a h; simp [pathCount] at h
  | cons b l ih =>
    intro a h
    simp only [pathCount] at h
    by_cases h1 : crossing u a b = 1
    · exact ⟨0, a, b, rfl, rfl, h1⟩
    · have : crossing u a b ≤ 0 := by
        unfold crossing at h1 ⊢
        split
        · rename_i h'; rw [if_pos h'] at h1; exact absurd rfl h1
        · split <;> simp
      obtain ⟨i, x, y, hx, hy, hc⟩ := ih b (by omega)
      exact ⟨i + 1, x, y, by simpa using hx, by simpa using hy, hc⟩

theorem ring_crosses (u : V2 K) (l : List (V2 K)) (h : 0 < ringCount u l) :
    ∃ (i : Nat) (x y : V2 K), i < l.length ∧ l[i]? = some x ∧ l[(i + 1) % l.length]? = some y ∧ crossing u x y = 1 := by
  cases l with
  | nil => simp [ringCount] at h
  | cons a l =>
    obtain ⟨i, x, y, hx, hy, hc⟩ := path_crosses u _ a h
    have hi : i < (l ++ [a]).length := by
      by_contra hn
      rw [List.getElem?_eq_none (not_lt.1 hn)] at hy
      exact absurd hy (by simp)
    have hil : i < (a :: l).length := by simpa using hi
    refine ⟨i, x, y, hil, ?_, ?_, hc⟩
    · rw [← List.cons_append, List.getElem?_append_left hil] at hx; exact hx
    · rcases (by simp only [List.length_cons] at hil; omega : i < l.length ∨ i = l.length) with h1 | h1
      · rw [Nat.mod_eq_of_lt (by simp; omega)]
        rw [List.getElem?_append_left h1] at hy
        simpa using hy
      · subst h1
        simp only [List.length_cons, Nat.mod_self]
        simpa using hy

/-- An edge crossing the ray clockwise has a point on it. -/
theorem crossing_point (u x y : V2 K) (h : crossing u x y = 1) : ∃ t s, 0 ≤ t ∧ t ≤ 1 ∧ 0 < s ∧ At x y t = u.scale s := by
  unfold crossing at h
  split at h
  · rename_i hc
    obtain ⟨h1, h2, h3⟩ := hc
    have hp : 0 < y.cross u - x.cross u := by linarith
    refine ⟨-(x.cross u) / (y.cross u - x.cross u), y.cross x / (y.cross u - x.cross u), div_nonneg (by linarith) hp.le, (div_le_one hp).2 (by linarith), div_pos h3 hp, ?_⟩
    have hne := hp.ne'
    generalize hD : y.cross u - x.cross u = D at *
    ext
    · simp only [At, V2.scale]
      field_simp
      rw [← hD]
      simp only [V2.cross]; ring
    · simp only [At, V2.scale]
      field_simp
      rw [← hD]
      simp only [V2.cross]; ring
  · split at h <;> simp at h

/-! ## The nearest point of an edge -/

theorem closestDist_le (a b : V2 K) (t : K) (h0 : 0 ≤ t) (h1 : t ≤ 1) : closestDist a b ≤ (At a b t).lengthSq := by
  unfold closestDist
  obtain ⟨m0, m1⟩ := closestT_mem a b
  obtain ⟨s1, s2, s3⟩ := closestT_spec a b
  rw [lerpT_at] at *
  obtain ⟨r, er⟩ : ∃ r, r = (1 + closestT a b) / 2 := ⟨_, rfl⟩
  rw [← er]
  have key : (At a b t).lengthSq = (At a b r).lengthSq + (2 * ((t - r) * (At a b r).dot (b.sub a)) + (t - r) ^ 2 * (b.sub a).lengthSq) := by
    simp only [At, V2.lengthSq, V2.dot, V2.sub]; ring
  have hsq : 0 ≤ (t - r) ^ 2 * (b.sub a).lengthSq := mul_nonneg (sq_nonneg _) (lengthSq_nonneg _)
  rcases m0.lt_or_eq with g0 | g0
  · rcases m1.lt_or_eq with g1 | g1
    · have := (s1 g0 g1).2
      rw [← er] at this
      rw [key, this]; linarith
    · have hr : r = 1 := by rw [er, g1]; ring
      have := s3 g1
      have e : (At a b r).dot (b.sub a) = b.dot b - a.dot b := by rw [hr]; simp only [At, V2.dot, V2.sub]; ring
      have hd : 0 ≤ (t - r) * (At a b r).dot (b.sub a) := by
        rw [e, hr]; exact mul_nonneg_of_nonpos_of_nonpos (by linarith) (by linarith)
      rw [key]; linarith
  · have hr : r = 0 := by rw [er, ← g0]; ring
    have := s2 g0.symm
    have e : (At a b r).dot (b.sub a) = a.dot b - a.dot a := by rw [hr]; simp only [At, V2.dot, V2.sub]; ring
    have hd : 0 ≤ (t - r) * (At a b r).dot (b.sub a) := by
      rw [e, hr]; exact mul_nonneg (by linarith) (by linarith)
    rw [key]; linarith

/-! ## The loop over the edges -/

/-- The distance, squared, of the edge after the `k`th point. -/
def edgeDist (hull : List (MPoint K)) (k : Nat) : K := closestDist (hullAt hull k).ab (hullAt hull ((k + 1) % hull.length)).ab

theorem epaScanGo_min (hull : List (MPoint K)) (inf : K) (hinf : ∀ k < hull.length, edgeDist hull k < inf) :
    ∀ (l pre : List (MPoint K)) (prev : MPoint K) (i : Nat) (md : K) (mini : Nat), hull = pre ++ l → 0 < hull.length →
      i = (pre.length + hull.length - 1) % hull.length → prev = hullAt hull i →
      (pre = [] → md = inf) → (pre ≠ [] → md = edgeDist hull mini ∧ ∀ k < hull.length, (k + 1) % hull.length < pre.length → md ≤ edgeDist hull k) →
      ∀ k < hull.length, edgeDist hull (epaScanGo prev i pre.length l md mini) ≤ edgeDist hull k := by
  intro l
  induction l with
  | nil =>
    intro pre prev i md mini he hpos hi hprev h1 h2 k hk
    rw [List.append_nil] at he
    have hne : pre ≠ [] := by intro e; rw [he, e] at hpos; simp at hpos
    obtain ⟨e, hall⟩ := h2 hne
    simp only [epaScanGo]
    rw [← e]
    exact hall k hk (by rw [← he]; exact Nat.mod_lt _ hpos)
  | cons h l ih =>
    intro pre prev i md mini he hpos hi hprev h1 h2
    have hlen : pre.length < hull.length := by rw [he]; simp
    have hh : h = hullAt hull pre.length := by
      unfold hullAt
      rw [he, List.getD_eq_getElem?_getD, List.getElem?_append_right (le_refl _)]; simp
    have hi1 : (i + 1) % hull.length = pre.length := by
      rw [hi]
      rcases Nat.eq_zero_or_pos pre.length with h0 | h0
      · rw [h0, Nat.zero_add, Nat.mod_eq_of_lt (by omega : hull.length - 1 < hull.length), Nat.sub_add_cancel hpos, Nat.mod_self]
      · rw [show pre.length + hull.length - 1 = (pre.length - 1) + hull.length by omega, Nat.add_mod_right, Nat.mod_eq_of_lt (by omega : pre.length - 1 < hull.length),
          Nat.sub_add_cancel h0, Nat.mod_eq_of_lt hlen]
    have hil : i < hull.length := by rw [hi]; exact Nat.mod_lt _ hpos
    have hd : closestDist prev.ab h.ab = edgeDist hull i := by rw [hprev, hh]; unfold edgeDist; rw [hi1]
    have hnext : pre.length = ((pre ++ [h]).length + hull.length - 1) % hull.length := by
      rw [List.length_append, List.length_singleton, show pre.length + 1 + hull.length - 1 = pre.length + hull.length by omega, Nat.add_mod_right,
        Nat.mod_eq_of_lt hlen]
    have step : ∀ (md' : K) (mini' : Nat), md' = edgeDist hull mini' → md' ≤ edgeDist hull i → (pre ≠ [] → md' ≤ md) →
        ∀ k < hull.length, edgeDist hull (epaScanGo h pre.length (pre.length + 1) l md' mini') ≤ edgeDist hull k := by
      intro md' mini' e hle hmd
      have := ih (pre ++ [h]) h pre.length md' mini' (by rw [he]; simp) hpos hnext hh (by simp) (fun _ => ⟨e, ?_⟩)
      · simpa using this
      · intro k hk hlt
        rw [List.length_append, List.length_singleton] at hlt
        rcases (by omega : (k + 1) % hull.length < pre.length ∨ (k + 1) % hull.length = pre.length) with h' | h'
        · have hne : pre ≠ [] := by intro e; rw [e] at h'; simp at h'
          exact (hmd hne).trans ((h2 hne).2 k hk h')
        · have : k = i := by
            have hki : (k + 1) % hull.length = (i + 1) % hull.length := by rw [h', hi1]
            rcases (by omega : k + 1 < hull.length ∨ k + 1 = hull.length) with a | a <;> rcases (by omega : i + 1 < hull.length ∨ i + 1 = hull.length) with b | b
            · rw [Nat.mod_eq_of_lt a, Nat.mod_eq_of_lt b] at hki; omega
            · rw [Nat.mod_eq_of_lt a, b, Nat.mod_self] at hki; omega
            · rw [a, Nat.mod_self, Nat.mod_eq_of_lt b] at hki; omega
            · omega
          rw [this]; exact hle
    simp only [epaScanGo]
    rw [hd]
    split
    · rename_i hlt
      exact step _ _ rfl (le_refl _) (fun _ => hlt.le)
    · rename_i hlt
      have hne : pre ≠ [] := by
        intro e
        rw [h1 e] at hlt
        exact hlt (hinf i hil)
      exact step _ _ (h2 hne).1 (not_lt.1 hlt) (fun _ => le_refl _)

/-- The loop finds the nearest edge. -/
theorem epaScan_min (inf : K) (hull : List (MPoint K)) (hne : hull ≠ []) (hinf : ∀ k < hull.length, edgeDist hull k < inf) (k : Nat) (hk : k < hull.length) :
    edgeDist hull (epaScan inf hull) ≤ edgeDist hull k := by
  have hpos := List.length_pos_iff.2 hne
  exact epaScanGo_min hull inf hinf hull [] _ (hull.length - 1) inf 0 rfl hpos (by simp [Nat.mod_eq_of_lt (by omega : hull.length - 1 < hull.length)]) rfl (fun _ => rfl)
    (fun h => absurd rfl h) k hk

/-! ## Inserting a point does not lose count -/

theorem rebuild_count (u : V2 K) (p : MPoint K) (l : List (MPoint K)) : ∀ h0 : MPoint K,
    pathCount u h0.ab (l.map MPoint.ab ++ [p.ab]) ≤ pathCount u h0.ab ((epaRebuild p h0 l).map MPoint.ab ++ [p.ab]) := by
  induction l with
  | nil => intro h0; simp [epaRebuild]
  | cons h1 l ih =>
    intro h0
    simp only [epaRebuild]
    split
    · simp only [List.map_cons, List.cons_append, pathCount]
      have := ih h1; omega
    · rename_i hg
      refine le_trans ?_ (ih h0)
      rw [pointGreater_iff, not_lt] at hg
      have tri := crossing_triangle u h0.ab (l.headD p).ab h1.ab (by
        simp only [V2.perp, V2.dot, V2.sub, V2.cross] at hg ⊢; linarith)
      rw [crossing_anti u h0.ab h1.ab, crossing_anti u h1.ab (l.headD p).ab] at tri
      cases l with
      | nil =>
        simp only [List.map_cons, List.map_nil, List.cons_append, List.nil_append, pathCount]
        simp only [List.headD_nil] at tri
        omega
      | cons h2 l =>
        simp only [List.map_cons, List.cons_append, pathCount]
        simp only [List.headD_cons] at tri
        omega

theorem rotate_ends (hull : List (MPoint K)) (m : Nat) (hm : m < hull.length) :
    ∃ mid, hull.rotate (m + 1) = hullAt hull ((m + 1) % hull.length) :: mid ∧ (hull.rotate (m + 1)).getLast? = some (hullAt hull m) := by
  have hpos : 0 < (hull.rotate (m + 1)).length := by simp; omega
  have hat : ∀ j (hj : j < hull.length), hullAt hull j = hull[j] := by
    intro j hj
    unfold hullAt
    rw [List.getD_eq_getElem?_getD, List.getElem?_eq_getElem hj, Option.getD_some]
  obtain ⟨a, mid, e⟩ := List.exists_cons_of_ne_nil (List.ne_nil_of_length_pos hpos)
  refine ⟨mid, ?_, ?_⟩
  · rw [e]
    congr 1
    have : (hull.rotate (m + 1))[0]'hpos = a := by simp [e]
    rw [← this, List.getElem_rotate, Nat.zero_add, hat _ (Nat.mod_lt _ (by omega))]
  · rw [List.getLast?_eq_getElem?, List.getElem?_eq_getElem (by omega), List.getElem_rotate, hat m hm]
    congr 2
    simp only [List.length_rotate]
    rw [show hull.length - 1 + (m + 1) = m + hull.length by omega, Nat.add_mod_right, Nat.mod_eq_of_lt hm]

theorem insert_count (u : V2 K) (hull : List (MPoint K)) (m : Nat) (hm : m < hull.length) (p : MPoint K)
    (hg : pointGreater (hullAt hull m).ab (hullAt hull ((m + 1) % hull.length)).ab p.ab = true) :
    ringCount u (hull.map MPoint.ab) ≤ ringCount u ((p :: epaRebuild p p (hull.rotate (m + 1))).map MPoint.ab) := by
  obtain ⟨mid, e1, e2⟩ := rotate_ends hull m hm
  rw [← ringCount_rotate u (hull.map MPoint.ab) (m + 1), ← List.map_rotate]
  show _ ≤ pathCount u p.ab ((epaRebuild p p (hull.rotate (m + 1))).map MPoint.ab ++ [p.ab])
  refine le_trans ?_ (rebuild_count u p _ p)
  rw [e1] at e2 ⊢
  generalize hullAt hull m = v0 at *
  generalize hullAt hull ((m + 1) % hull.length) = v1 at *
  simp only [List.map_cons, ringCount, List.cons_append, pathCount]
  rw [pathCount_append, pathCount_append]
  have hl : ((v1.ab :: mid.map MPoint.ab).getLast (by simp)) = v0.ab := by
    have : (v1 :: mid).getLast (by simp) = v0 := by
      rw [List.getLast?_eq_getLast_of_ne_nil (by simp)] at e2
      exact Option.some.inj e2
    rw [← this]
    exact List.getLast_map (f := MPoint.ab) (l := v1 :: mid) (by simp)
  rw [hl]
  simp only [pathCount]
  rw [pointGreater_iff] at hg
  have tri := crossing_triangle u v0.ab p.ab v1.ab (by simp only [V2.perp, V2.dot, V2.sub, V2.cross] at hg ⊢; linarith)
  rw [crossing_anti u v0.ab v1.ab] at tri
  omega

/-! ## The first triangle -/

theorem crossing_pos {u x y : V2 K} (h : 0 < y.cross x) : crossing u x y = if x.cross u ≤ 0 ∧ 0 < y.cross u then 1 else 0 := by
  unfold crossing
  by_cases h1 : x.cross u ≤ 0 ∧ 0 < y.cross u
  · rw [if_pos ⟨h1.1, h1.2, h⟩, if_pos h1]
  · rw [if_neg (fun h' => h1 ⟨h'.1, h'.2.1⟩), if_neg h1, if_neg (fun h' => absurd h'.2.2 (not_lt.2 h.le))]

/-- A vector that is parallel to a ray. -/
theorem parallel_cross {u a : V2 K} (hu : u ≠ V2.zero) (h : a.cross u = 0) : ∃ k, a = u.scale k := by
  have hp : 0 < u.lengthSq := lt_of_le_of_ne (lengthSq_nonneg _) (fun e => hu (lengthSq_eq_zero _ e.symm))
  refine ⟨a.dot u / u.lengthSq, ?_⟩
  have hne := hp.ne'
  simp only [V2.cross] at h
  simp only [V2.lengthSq, V2.dot] at hne
  have hy : a.x * u.y = a.y * u.x := by linarith
  ext
  · simp only [V2.scale, V2.dot, V2.lengthSq]
    rw [mul_div_assoc', eq_div_iff hne]
    linear_combination (u.y) * hy
  · simp only [V2.scale, V2.dot, V2.lengthSq]
    rw [mul_div_assoc', eq_div_iff hne]
    linear_combination (-u.x) * hy

theorem triangle_count (u a b c : V2 K) (hu : u ≠ V2.zero) (h1 : 0 < b.cross a) (h2 : 0 < c.cross b) (h3 : 0 < a.cross c) : 1 ≤ ringCount u [a, b, c] := by
  simp only [ringCount, List.cons_append, List.nil_append, pathCount]
  rw [crossing_pos h1, crossing_pos h2, crossing_pos h3]
  have e : a.cross u * c.cross b + b.cross u * a.cross c + c.cross u * b.cross a = 0 := by simp only [V2.cross]; ring
  rcases le_or_gt (a.cross u) 0 with ha | ha <;> rcases le_or_gt (b.cross u) 0 with hb | hb <;> rcases le_or_gt (c.cross u) 0 with hc | hc
  · exfalso
    have p1 := mul_nonneg (neg_nonneg.2 ha) h2.le
    have p2 := mul_nonneg (neg_nonneg.2 hb) h3.le
    have p3 := mul_nonneg (neg_nonneg.2 hc) h1.le
    have z1 : a.cross u = 0 := by
      have : a.cross u * c.cross b = 0 := by linarith
      exact (mul_eq_zero.1 this).resolve_right h2.ne'
    have z2 : b.cross u = 0 := by
      have : b.cross u * a.cross c = 0 := by linarith
      exact (mul_eq_zero.1 this).resolve_right h3.ne'
    obtain ⟨k, rfl⟩ := parallel_cross hu z1
    obtain ⟨k', rfl⟩ := parallel_cross hu z2
    have : (u.scale k').cross (u.scale k) = 0 := by simp only [V2.cross, V2.scale]; ring
    linarith
  all_goals first
    | (exfalso
       have p1 := mul_pos ha h2
       have p2 := mul_pos hb h3
       have p3 := mul_pos hc h1
       linarith)
    | simp [ha, hb, hc, not_le.2, not_lt.2]

/-- When the origin lies on the first side, the point found beyond that side makes up for it. -/
theorem quad_count (u p' v0 p v1 : V2 K) (hu : u ≠ V2.zero) (h0 : v0.cross v1 = 0) (h1 : 0 < p.cross v0) (h2 : 0 < v1.cross p)
    (hg : pointGreater v1 v0 p' = true) : 1 ≤ ringCount u [p', v0, p, v1] := by
  obtain ⟨k, hk, e⟩ : ∃ k : K, 0 < k ∧ v1 = v0.scale (-k) := by
    refine ⟨v1.cross p / p.cross v0, div_pos h2 h1, ?_⟩
    have hne := h1.ne'
    generalize hD : p.cross v0 = D at *
    ext
    · simp only [V2.scale]
      field_simp
      rw [← hD]
      simp only [V2.cross] at *
      linear_combination (-p.x) * h0
    · simp only [V2.scale]
      field_simp
      rw [← hD]
      simp only [V2.cross] at *
      linear_combination (-p.y) * h0
  rw [pointGreater_iff] at hg
  have h3 : 0 < v0.cross p' := by
    have : 0 < (1 + k) * v0.cross p' := by
      rw [e] at hg
      simp only [V2.perp, V2.dot, V2.sub, V2.scale, V2.cross] at hg ⊢
      linarith
    exact (mul_pos_iff_of_pos_left (by linarith)).1 this
  have h4 : 0 < p'.cross v1 := by
    have : p'.cross v1 = k * v0.cross p' := by rw [e]; simp only [V2.cross, V2.scale]; ring
    rw [this]; exact mul_pos hk h3
  simp only [ringCount, List.cons_append, List.nil_append, pathCount]
  rw [crossing_pos h3, crossing_pos h1, crossing_pos h2, crossing_pos h4]
  have gv : v1.cross u = -(k * v0.cross u) := by rw [e]; simp only [V2.cross, V2.scale]; ring
  rcases lt_trichotomy (v0.cross u) 0 with hv | hv | hv
  · have hv1 : 0 < v1.cross u := by rw [gv]; have := mul_pos_of_neg_of_neg (neg_neg_of_pos hk) hv; linarith
    rcases le_or_gt (p.cross u) 0 with hb | hb
    · simp [hb, hv1, not_le.2 hv1, not_lt.2 hb]; split <;> simp
    · simp [hb, hv.le, not_le.2 hb, not_lt.2 hv.le]; split <;> simp
  · have hv1 : v1.cross u = 0 := by rw [gv, hv]; ring
    obtain ⟨l, el⟩ := parallel_cross hu hv
    have a1 : p.cross v0 = l * p.cross u := by rw [el]; simp only [V2.cross, V2.scale]; ring
    have a2 : v0.cross p' = -(l * p'.cross u) := by rw [el]; simp only [V2.cross, V2.scale]; ring
    rw [a1] at h1
    rw [a2] at h3
    rcases lt_trichotomy l 0 with hl | hl | hl
    · have : 0 < p'.cross u := by
        by_contra hn
        have := mul_nonneg_of_nonpos_of_nonpos hl.le (not_lt.1 hn)
        linarith
      simp [hv1, hv, this, not_le.2 this]; split <;> simp
    · rw [hl] at h1; simp at h1
    · have : 0 < p.cross u := (mul_pos_iff_of_pos_left hl).1 h1
      simp [hv1, hv, this, not_le.2 this]; split <;> simp
  · have hv1 : v1.cross u ≤ 0 := by rw [gv]; have := mul_pos hk hv; linarith
    rcases le_or_gt (p'.cross u) 0 with hb | hb
    · simp [hb, hv, not_le.2 hv, not_lt.2 hb, not_lt.2 hv1]
    · simp [hb, hv1, hv, not_le.2 hb, not_le.2 hv, not_lt.2 hv1]

/-! ## The result of EPA is inside the difference in every direction -/

/-- In every direction the difference of the shapes reaches at least as far as the points reported are apart. -/
def Reaches (ctx : Ctx K) (c : Closest K) : Prop :=
  ∀ u : V2 K, u ≠ V2.zero → ∃ s, 0 ≤ s ∧ InDiff ctx.s1 ctx.s2 (u.scale s) ∧ (c.b.sub c.a).lengthSq ≤ (u.scale s).lengthSq

theorem edgeDist_inf (inf B : K) (ctx : Ctx K) (hw1 : Within B ctx.s1) (hw2 : Within B ctx.s2) (hinf : 8 * (B * B) < inf)
    (x y : MPoint K) (hx : MOk ctx x) (hy : MOk ctx y) : closestDist x.ab y.ab < inf := by
  have := closestDist_le x.ab y.ab 0 (le_refl _) zero_le_one
  refine lt_of_le_of_lt this (lt_of_le_of_lt ?_ hinf)
  obtain ⟨h1, h2⟩ := mok_within B ctx hw1 hw2 x hx
  have q1 := sq_le_sq' (neg_le_of_abs_le h1) (le_of_abs_le h1)
  have q2 := sq_le_sq' (neg_le_of_abs_le h2) (le_of_abs_le h2)
  simp only [At, V2.lengthSq, V2.dot]
  nlinarith [q1, q2]

theorem hullAt_some (l : List (MPoint K)) (i : Nat) (x : V2 K) (h : (l.map MPoint.ab)[i]? = some x) : (hullAt l i).ab = x := by
  unfold hullAt
  rw [List.getD_eq_getElem?_getD]
  rw [List.getElem?_map] at h
  cases e : l[i]? with
  | none => rw [e] at h; simp at h
  | some y => rw [e] at h; simpa using h

/-- A chain which goes round the origin gives the bound. -/
theorem reaches_of_count (M : Mth K) (inf B : K) (ctx : Ctx K) (hw1 : Within B ctx.s1) (hw2 : Within B ctx.s2) (hinf : 8 * (B * B) < inf)
    (hull : List (MPoint K)) (hne : hull ≠ []) (hall : ∀ x ∈ hull, MOk ctx x) (hcount : ∀ u, u ≠ V2.zero → 1 ≤ ringCount u (hull.map MPoint.ab)) :
    Reaches ctx ((hullAt hull (epaScan inf hull)).closestPoints M (hullAt hull ((epaScan inf hull + 1) % hull.length))) := by
  intro u hu
  have hpos := List.length_pos_iff.2 hne
  have hmok : ∀ k < hull.length, MOk ctx (hullAt hull k) := fun k hk => hall _ (hullAt_mem _ _ hk)
  obtain ⟨i, x, y, hi, hx, hy, hc⟩ := ring_crosses u (hull.map MPoint.ab) (by have := hcount u hu; omega)
  rw [List.length_map] at hi hy
  have ex := hullAt_some _ _ _ hx
  have ey := hullAt_some _ _ _ hy
  obtain ⟨t, s, t0, t1, hs, e⟩ := crossing_point u x y hc
  refine ⟨s, hs.le, ?_, ?_⟩
  · rw [← e, ← ex, ← ey]
    exact inDiff_mix _ _ _ _ (mok_diff ctx _ (hmok i hi)) (mok_diff ctx _ (hmok _ (Nat.mod_lt _ hpos))) t t0 t1
  · have hm := epaScan_lt inf hull hne
    rw [(closest_in M ctx _ _ (hmok _ hm) (hmok _ (Nat.mod_lt _ hpos))).2.2]
    have := epaScan_min inf hull hne (fun k hk => edgeDist_inf inf B ctx hw1 hw2 hinf _ _ (hmok k hk) (hmok _ (Nat.mod_lt _ hpos))) i hi
    refine le_trans this ?_
    unfold edgeDist
    rw [ex, ey, ← e]
    exact closestDist_le x y t t0 t1

theorem epaRecurse_reaches (M : Mth K) (inf B : K) (ctx : Ctx K) (hs : Solid ctx) (hw1 : Within B ctx.s1) (hw2 : Within B ctx.s2) (hinf : 8 * (B * B) < inf)
    (fuel : Nat) : ∀ hull : List (MPoint K), hull ≠ [] → (∀ x ∈ hull, MOk ctx x) → (∀ u, u ≠ V2.zero → 1 ≤ ringCount u (hull.map MPoint.ab)) →
      Reaches ctx (epaRecurse M inf ctx fuel hull).1 := by
  induction fuel with
  | zero =>
    intro hull hne hall hcount
    have := reaches_of_count M inf B ctx hw1 hw2 hinf hull hne hall hcount
    rw [epaRecurse]
    split <;> exact this
  | succ fuel ih =>
    intro hull hne hall hcount
    rw [epaRecurse]
    split
    · rename_i hc
      apply ih _ (by simp)
      · intro x hx
        rcases List.mem_cons.1 hx with rfl | hx
        · exact support_ok inf ctx hs.1 hs.2 _
        · exact hall _ (List.mem_rotate.1 (epaRebuild_mem _ _ _ _ hx))
      · intro u hu
        exact (hcount u hu).trans (insert_count u hull _ (epaScan_lt inf hull hne) _ hc.2)
    · exact reaches_of_count M inf B ctx hw1 hw2 hinf hull hne hall hcount

/-- The first side of the first triangle is the nearest when the origin lies on it. -/
theorem scan_first (inf : K) (v0 p v1 : MPoint K) (h : closestDist v1.ab v0.ab = 0) (hinf : 0 < inf) : epaScan inf [v0, p, v1] = 2 := by
  have hn : ∀ a b : V2 K, ¬ closestDist a b < 0 := fun a b => not_lt.2 (lengthSq_nonneg _)
  have e : hullAt [v0, p, v1] ([v0, p, v1].length - 1) = v1 := rfl
  unfold epaScan
  rw [e]
  simp only [epaScanGo]
  rw [h, if_pos hinf]
  simp only [if_neg (hn _ _)]
  rfl

theorem epa_reaches (M : Mth K) (inf B : K) (ctx : Ctx K) (hs : Solid ctx) (hw1 : Within B ctx.s1) (hw2 : Within B ctx.s2) (hinf : 8 * (B * B) < inf)
    (fuel : Nat) (v0 p v1 : MPoint K) (m0 : MOk ctx v0) (m1 : MOk ctx p) (m2 : MOk ctx v1)
    (c0 : 0 ≤ v0.ab.cross v1.ab) (c1 : 0 < p.ab.cross v0.ab) (c2 : 0 < v1.ab.cross p.ab) :
    Reaches ctx (epaRecurse M inf ctx fuel [v0, p, v1]).1 := by
  have hall : ∀ x ∈ [v0, p, v1], MOk ctx x := by
    intro x hx
    simp only [List.mem_cons, List.not_mem_nil, or_false] at hx
    rcases hx with rfl | rfl | rfl <;> assumption
  rcases c0.lt_or_eq with c0 | c0
  · exact epaRecurse_reaches M inf B ctx hs hw1 hw2 hinf fuel _ (by simp) hall (fun u hu => triangle_count u _ _ _ hu c1 c2 c0)
  · have hz : closestDist v1.ab v0.ab = 0 := by
      have hsum : 0 < v1.ab.cross p.ab + p.ab.cross v0.ab := by linarith
      have hle := closestDist_le v1.ab v0.ab (v1.ab.cross p.ab / (v1.ab.cross p.ab + p.ab.cross v0.ab)) (by positivity) ((div_le_one hsum).2 (by linarith))
      have e : At v1.ab v0.ab (v1.ab.cross p.ab / (v1.ab.cross p.ab + p.ab.cross v0.ab)) = V2.zero := by
        have hne := hsum.ne'
        generalize hD : v1.ab.cross p.ab + p.ab.cross v0.ab = D at *
        simp only [V2.cross] at *
        ext
        · simp only [At, V2.zero]
          field_simp
          rw [← hD]
          linear_combination (p.ab.x) * c0
        · simp only [At, V2.zero]
          field_simp
          rw [← hD]
          linear_combination (p.ab.y) * c0
      rw [e] at hle
      have : (V2.zero : V2 K).lengthSq = 0 := by simp [V2.zero, V2.lengthSq, V2.dot]
      rw [this] at hle
      exact le_antisymm hle (lengthSq_nonneg _)
    have hpos : 0 < inf := lt_of_le_of_lt (by nlinarith [mul_self_nonneg B]) hinf
    have hscan := scan_first inf v0 p v1 hz hpos
    have e0 : hullAt [v0, p, v1] 2 = v1 := rfl
    have e1 : hullAt [v0, p, v1] ((2 + 1) % [v0, p, v1].length) = v0 := by simp [hullAt]
    have hend : Reaches ctx (v1.closestPoints M v0) := by
      intro u hu
      refine ⟨0, le_refl _, ?_, ?_⟩
      · have : u.scale 0 = V2.zero := by simp [V2.scale, V2.zero]
        rw [this]
        exact triangle_origin ctx.s1 ctx.s2 _ _ _ (mok_diff ctx v0 m0) (mok_diff ctx p m1) (mok_diff ctx v1 m2) c0.le c1 c2
      · rw [(closest_in M ctx _ _ m2 m0).2.2]
        have : (lerpT v1.ab v0.ab (closestT v1.ab v0.ab)).lengthSq = 0 := hz
        rw [this]; exact lengthSq_nonneg _
    cases fuel with
    | zero =>
      rw [epaRecurse]
      rw [hscan, e0, e1]
      split <;> exact hend
    | succ fuel =>
      rw [epaRecurse]
      rw [hscan, e0, e1]
      split
      · rename_i hc
        apply epaRecurse_reaches M inf B ctx hs hw1 hw2 hinf fuel _ (by simp)
        · intro x hx
          rcases List.mem_cons.1 hx with rfl | hx
          · exact support_ok inf ctx hs.1 hs.2 _
          · exact hall _ (List.mem_rotate.1 (epaRebuild_mem _ _ _ _ hx))
        · intro u hu
          have er : [v0, p, v1].rotate (2 + 1) = [v0, p, v1] := by simp [List.rotate]
          rw [er]
          refine (quad_count u _ _ _ _ hu c0.symm c1 c2 hc.2).trans ?_
          exact rebuild_count u _ [v0, p, v1] _
      · exact hend

theorem gjkRecurse_reaches (M : Mth K) (inf B : K) (ctx : Ctx K) (hs : Solid ctx) (hw1 : Within B ctx.s1) (hw2 : Within B ctx.s2) (hinf : 8 * (B * B) < inf)
    (fuel : Nat) : ∀ w0 w1, MOk ctx w0 → MOk ctx w1 →
      ((gjkRecurse M inf ctx fuel w0 w1).2 = .epaDone ∨ (gjkRecurse M inf ctx fuel w0 w1).2 = .epaLimit) → Reaches ctx (gjkRecurse M inf ctx fuel w0 w1).1 := by
  induction fuel with
  | zero => intro w0 w1 h0 h1 h; simp [gjkRecurse] at h
  | succ fuel ih =>
    intro w0 w1 h0 h1
    rw [gjkRecurse]
    have hcr : 0 ≤ (if pointGreater w1.ab w0.ab V2.zero = true then w1 else w0).ab.cross
        (if pointGreater w1.ab w0.ab V2.zero = true then w0 else w1).ab := by
      split
      · rename_i h; exact le_of_lt ((pointGreater_zero _ _).1 h)
      · rename_i h
        rw [pointGreater_zero] at h
        simp only [V2.cross] at *
        linarith
    have hv0 : MOk ctx (if pointGreater w1.ab w0.ab V2.zero = true then w1 else w0) := by split <;> assumption
    have hv1 : MOk ctx (if pointGreater w1.ab w0.ab V2.zero = true then w0 else w1) := by split <;> assumption
    generalize (if pointGreater w1.ab w0.ab V2.zero = true then w1 else w0) = v0 at hcr hv0 ⊢
    generalize (if pointGreater w1.ab w0.ab V2.zero = true then w0 else w1) = v1 at hcr hv1 ⊢
    generalize hn : (if -1 < closestT v0.ab v1.ab ∧ closestT v0.ab v1.ab < 1 then (v1.ab.sub v0.ab).perp
      else (lerpT v0.ab v1.ab (closestT v0.ab v1.ab)).neg) = n
    split
    · rename_i hin
      rw [Bool.and_eq_true, pointGreater_zero, pointGreater_zero] at hin
      intro _
      exact epa_reaches M inf B ctx hs hw1 hw2 hinf _ _ _ _ hv0 (support_ok inf ctx hs.1 hs.2 _) hv1 hcr hin.1 hin.2
    · split
      · intro h; simp at h
      · split
        · exact ih _ _ hv0 (support_ok inf ctx hs.1 hs.2 _)
        · exact ih _ _ (support_ok inf ctx hs.1 hs.2 _) hv1

theorem gjk_reaches (M : Mth K) (inf B : K) (ctx : Ctx K) (hs : Solid ctx) (hw1 : Within B ctx.s1) (hw2 : Within B ctx.s2) (hinf : 8 * (B * B) < inf)
    (id : Nat) (c : Closest K) (st : Stop) (hstop : gjk M inf ctx id = (c, st)) (hst : st = .epaDone ∨ st = .epaLimit) : Reaches ctx c := by
  have h1 : c = (gjk M inf ctx id).1 := by rw [hstop]
  have h2 : st = (gjk M inf ctx id).2 := by rw [hstop]
  rw [h1]
  rw [h2] at hst
  revert hst
  unfold gjk
  dsimp only
  apply gjkRecurse_reaches M inf B ctx hs hw1 hw2 hinf
  · unfold gjkStart; split
    · exact ⟨(pointAt_mem ctx.s1 _ hs.1).1, (pointAt_mem ctx.s2 _ hs.2).1, rfl⟩
    · exact support_ok inf ctx hs.1 hs.2 _
  · unfold gjkStart; split
    · exact ⟨(pointAt_mem ctx.s1 _ hs.1).1, (pointAt_mem ctx.s2 _ hs.2).1, rfl⟩
    · exact support_ok inf ctx hs.1 hs.2 _

/-! ## C101 -/

/-- **C101.** Whatever the starting guess, when GJK hands over to EPA, and also when EPA gives up after its last round, moving the second shape by less
than the distance of the two reported points leaves the shapes with a common point. -/
theorem C101_short (M : Mth K) (inf B : K) (ctx : Ctx K) (hs : Solid ctx) (hw1 : Within B ctx.s1) (hw2 : Within B ctx.s2) (hinf : 8 * (B * B) < inf)
    (id : Nat) (c : Closest K) (st : Stop) (hstop : gjk M inf ctx id = (c, st)) (hst : st = .epaDone ∨ st = .epaLimit)
    (v : V2 K) (hv : v.lengthSq ≤ (c.b.sub c.a).lengthSq) : Meet ctx.s1 ctx.s2 v := by
  have hr := gjk_reaches M inf B ctx hs hw1 hw2 hinf id c st hstop hst
  have hgoal : ∀ w : V2 K, w = v.neg → InDiff ctx.s1 ctx.s2 w → Meet ctx.s1 ctx.s2 v := by
    rintro w rfl ⟨x, y, hx, hy, e⟩
    refine ⟨x, y, hx, hy, ?_⟩
    simp only [V2.neg, V2.sub, V2.mk.injEq] at e
    ext
    · simp only [V2.add]; linarith [e.1]
    · simp only [V2.add]; linarith [e.2]
  -- the origin
  obtain ⟨s1, p1, d1, -⟩ := hr ⟨1, 0⟩ (by simp [V2.zero])
  obtain ⟨s2, p2, d2, -⟩ := hr ⟨-1, 0⟩ (by simp [V2.zero])
  have h0 : InDiff ctx.s1 ctx.s2 V2.zero := by
    rcases p1.lt_or_eq with q | q
    · have hsum : 0 < s1 + s2 := by linarith
      have := inDiff_mix _ _ _ _ d1 d2 (s1 / (s1 + s2)) (by positivity) ((div_le_one hsum).2 (by linarith))
      have e : At ((⟨1, 0⟩ : V2 K).scale s1) ((⟨-1, 0⟩ : V2 K).scale s2) (s1 / (s1 + s2)) = V2.zero := by
        have hne := hsum.ne'
        simp only [At, V2.scale, V2.zero]
        ext
        · simp only; field_simp; ring
        · simp only; ring
      rwa [e] at this
    · rw [← q] at d1
      simpa [V2.scale, V2.zero] using d1
  by_cases hz : v = V2.zero
  · exact hgoal V2.zero (by rw [hz]; simp [V2.zero, V2.neg]) h0
  · obtain ⟨s, hs0, hd, hle⟩ := hr v.neg (by
      intro e
      apply hz
      simp only [V2.neg, V2.zero, V2.mk.injEq, neg_eq_zero] at e
      ext
      · exact e.1
      · exact e.2)
    have hp : 0 < v.lengthSq := lt_of_le_of_ne (lengthSq_nonneg _) (fun e => hz (lengthSq_eq_zero _ e.symm))
    have hq : v.lengthSq * 1 ≤ v.lengthSq * s ^ 2 := by
      have := hv.trans hle
      have e : (v.neg.scale s).lengthSq = v.lengthSq * s ^ 2 := by simp only [V2.lengthSq, V2.dot, V2.scale, V2.neg]; ring
      rw [e] at this
      linarith
    have hs1 : 1 ≤ s := by
      have := le_of_mul_le_mul_left hq hp
      nlinarith
    have hpos : 0 < s := by linarith
    have := inDiff_mix _ _ _ _ h0 hd (1 / s) (by positivity) ((div_le_one hpos).2 hs1)
    refine hgoal _ ?_ this
    have hne := hpos.ne'
    ext
    · simp only [At, V2.scale, V2.neg, V2.zero]; field_simp; ring
    · simp only [At, V2.scale, V2.neg, V2.zero]; field_simp; ring

/-- **C101.** When EPA stops by itself with a normal, the points reported are one below the other along it. -/
theorem C101_foot {M : Mth K} (hM : M.Lawful) (inf B : K) (ctx : Ctx K) (hs : Solid ctx) (hw1 : Within B ctx.s1) (hw2 : Within B ctx.s2)
    (hinf : 8 * (B * B) < inf) (hc1 : (corners ctx.s1).length ≤ 256) (hc2 : (corners ctx.s2).length ≤ 256)
    (id : Nat) (c : Closest K) (hstop : gjk M inf ctx id = (c, .epaDone)) (hn : c.n ≠ V2.zero) : c.b.sub c.a = c.n.scale c.d := by
  obtain ⟨-, hd, hall, hdot⟩ := C45_epa hM inf B ctx hs hw1 hw2 hinf hc1 hc2 id c hstop
  have hpts := C45_points hM inf ctx hs id
  rw [hstop] at hpts
  have hunit : c.n.lengthSq = 1 := by
    rcases hpts.2.2.2 with h | h
    · exact h
    · exact absurd h.1 hn
  obtain ⟨s, hs0, ⟨x, y, hx, hy, e⟩, hle⟩ := gjk_reaches M inf B ctx hs hw1 hw2 hinf id c _ hstop (Or.inl rfl) c.n.neg (by
    intro e
    apply hn
    simp only [V2.neg, V2.zero, V2.mk.injEq, neg_eq_zero] at e
    ext
    · exact e.1
    · exact e.2)
  have hsd := hall x y hx hy
  rw [← e] at hsd
  have e1 : (c.n.neg.scale s).dot c.n = -s * c.n.lengthSq := by simp only [V2.dot, V2.scale, V2.neg, V2.lengthSq]; ring
  have e2 : (c.n.neg.scale s).lengthSq = s ^ 2 * c.n.lengthSq := by simp only [V2.lengthSq, V2.dot, V2.scale, V2.neg]; ring
  rw [e1, hunit] at hsd
  rw [e2, hunit] at hle
  have hs2 : s ^ 2 ≤ c.d ^ 2 := by nlinarith
  have key : ((c.b.sub c.a).sub (c.n.scale c.d)).lengthSq = (c.b.sub c.a).lengthSq - 2 * c.d * (c.b.sub c.a).dot c.n + c.d ^ 2 * c.n.lengthSq := by
    simp only [V2.lengthSq, V2.dot, V2.sub, V2.scale]; ring
  rw [hdot, hunit] at key
  have hz := lengthSq_eq_zero _ (le_antisymm (by rw [key]; linarith : ((c.b.sub c.a).sub (c.n.scale c.d)).lengthSq ≤ 0) (lengthSq_nonneg _))
  simp only [V2.sub, V2.zero, V2.mk.injEq] at hz
  ext
  · simp only [V2.sub]; linarith [hz.1]
  · simp only [V2.sub]; linarith [hz.2]

/-- **C101.** When EPA stops by itself with a normal, its answer is the shortest way to part the shapes: after moving the second shape by
no more than the reported depth, in any direction, they still have a common point; moving it any farther along the reported normal parts them. -/
theorem C101_shortest {M : Mth K} (hM : M.Lawful) (inf B : K) (ctx : Ctx K) (hs : Solid ctx) (hw1 : Within B ctx.s1) (hw2 : Within B ctx.s2)
    (hinf : 8 * (B * B) < inf) (hc1 : (corners ctx.s1).length ≤ 256) (hc2 : (corners ctx.s2).length ≤ 256)
    (id : Nat) (c : Closest K) (hstop : gjk M inf ctx id = (c, .epaDone)) (hn : c.n ≠ V2.zero) :
    (∀ v : V2 K, v.mag M ≤ -c.d → Meet ctx.s1 ctx.s2 v) ∧ (∀ k, -c.d < k → ¬ Meet ctx.s1 ctx.s2 (c.n.scale k)) := by
  obtain ⟨-, hd, hall, hdot⟩ := C45_epa hM inf B ctx hs hw1 hw2 hinf hc1 hc2 id c hstop
  have hfoot := C101_foot hM inf B ctx hs hw1 hw2 hinf hc1 hc2 id c hstop hn
  have hpts := C45_points hM inf ctx hs id
  rw [hstop] at hpts
  have hunit : c.n.lengthSq = 1 := by
    rcases hpts.2.2.2 with h | h
    · exact h
    · exact absurd h.1 hn
  constructor
  · intro v hv
    refine C101_short M inf B ctx hs hw1 hw2 hinf id c _ hstop (Or.inl rfl) v ?_
    rw [hfoot]
    have e : (c.n.scale c.d).lengthSq = c.d ^ 2 * c.n.lengthSq := by simp only [V2.lengthSq, V2.dot, V2.scale]; ring
    rw [e, hunit, mul_one, ← mag_sq hM v]
    have := mag_nonneg hM v
    nlinarith
  · rintro k hk ⟨x, y, hx, hy, e⟩
    have := hall x y hx hy
    rw [e] at this
    have e2 : (y.sub (y.add (c.n.scale k))).dot c.n = -k * c.n.lengthSq := by simp only [V2.dot, V2.sub, V2.add, V2.scale, V2.lengthSq]; ring
    rw [e2, hunit] at this
    linarith

/-! ## Examples -/

/-- Two crossing rods: EPA stops by itself with depth 3 and a normal, and the hypotheses of the theorems hold. -/
example : gjk gridMth 100000 (exSegs gridMth ⟨-4, 0⟩ ⟨4, 0⟩ ⟨1, -3⟩ ⟨1, 5⟩) 0 = (⟨⟨1, 0⟩, ⟨1, -3⟩, ⟨0, 1⟩, -3, 256⟩, .epaDone) ∧
    (⟨0, 1⟩ : V2 ℚ) ≠ V2.zero := by
  decide +kernel

/-- The bound of `C101_short` in this example: moved by (2, 2) the rods still cross. Moved up by 4 they do not. -/
example : Meet (exSegs gridMth ⟨-4, 0⟩ ⟨4, 0⟩ ⟨1, -3⟩ ⟨1, 5⟩).s1 (exSegs gridMth ⟨-4, 0⟩ ⟨4, 0⟩ ⟨1, -3⟩ ⟨1, 5⟩).s2 ⟨2, 2⟩ :=
  C101_short gridMth 100000 5 _ ⟨by simp [exSegs, corners], by simp [exSegs, corners]⟩
    (by
      intro v hv
      simp only [exSegs, corners, segAt, List.mem_cons, List.not_mem_nil, or_false] at hv
      rcases hv with rfl | rfl <;> norm_num)
    (by
      intro v hv
      simp only [exSegs, corners, segAt, List.mem_cons, List.not_mem_nil, or_false] at hv
      rcases hv with rfl | rfl <;> norm_num)
    (by norm_num) 0 ⟨⟨1, 0⟩, ⟨1, -3⟩, ⟨0, 1⟩, -3, 256⟩ .epaDone (by decide +kernel) (Or.inl rfl) ⟨2, 2⟩ (by decide +kernel)

end Cm
