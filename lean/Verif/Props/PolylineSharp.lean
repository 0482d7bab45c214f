import Verif.Props.PolylineSimplify
import Verif.Props.JointNew
/-! # C127: which vertexes are dropped, and which lines are short -/
set_option linter.unusedSectionVars false
set_option linter.unusedSimpArgs false
set_option linter.unusedVariables false

namespace Cm
open Spec
variable {K : Type} [Field K] [LinearOrder K] [IsStrictOrderedRing K]

namespace Spec
/-- A line from `a` over `b` to `d` turns at `b` by an angle with the cosine `c` or by less. -/
def Flat (c : K) (a b d : V2 K) : Prop :=
  a ≠ b ∧ b ≠ d ∧ ∀ l l' : K, IsDist l a b → IsDist l' b d → c * (l * l') ≤ (b.x - a.x) * (d.x - b.x) + (b.y - a.y) * (d.y - b.y)

/-- `r` is left of the second line if the vertexes are read one after the other, and each that is flat between the last one kept, at first `a`, and the next is dropped. -/
inductive LeftOver (c : K) : V2 K → Line K → Line K → Prop
  | last (a b : V2 K) : LeftOver c a [b] [b]
  | drop (a b d : V2 K) (rest r : Line K) : Flat c a b d → LeftOver c a (d :: rest) r → LeftOver c a (b :: d :: rest) r
  | keep (a b d : V2 K) (rest r : Line K) : ¬ Flat c a b d → LeftOver c b (d :: rest) r → LeftOver c a (b :: d :: rest) (b :: r)
end Spec

theorem isDist_unique {l l' : K} {p q : V2 K} (h : IsDist l p q) (h' : IsDist l' p q) : l = l' := by
  obtain ⟨h1, h2⟩ := h
  obtain ⟨h3, h4⟩ := h'
  exact (pow_left_inj₀ h1 h3 two_ne_zero).1 (by rw [sq, sq]; nlinarith [h2, h4])

theorem sharp_flat {M : Mth K} (hM : M.Lawful) {c : K} (hc : 0 < c) (a b d : V2 K) : sharpness M a b d ≤ -c ↔ Flat c a b d := by
  have hz : ∀ u v : V2 K, u ≠ v → u.sub v ≠ V2.zero := by
    intro u v h he
    apply h
    have hx := congrArg V2.x he
    have hy := congrArg V2.y he
    simp only [V2.sub, V2.zero, sub_eq_zero] at hx hy
    exact V2.ext hx hy
  by_cases hab : a = b
  · subst hab
    constructor
    · intro h
      have : sharpness M a a d = 0 := by
        unfold sharpness
        rw [show a.sub a = V2.zero by simp [V2.sub, V2.zero], unit_zero]
        simp [V2.dot, V2.zero]
      rw [this] at h
      linarith
    · exact fun h => absurd rfl h.1
  by_cases hbd : b = d
  · subst hbd
    constructor
    · intro h
      have : sharpness M a b b = 0 := by
        unfold sharpness
        rw [show b.sub b = V2.zero by simp [V2.sub, V2.zero], unit_zero]
        simp [V2.dot, V2.zero]
      rw [this] at h
      linarith
    · exact fun h => absurd rfl h.2.1
  have p1 : 0 < (a.sub b).mag M := lt_of_le_of_ne (mag_nonneg hM _) fun h => hz a b hab (mag_eq_zero hM _ h.symm)
  have p2 : 0 < (d.sub b).mag M := lt_of_le_of_ne (mag_nonneg hM _) fun h => hz d b (Ne.symm hbd) (mag_eq_zero hM _ h.symm)
  have d1 : IsDist ((a.sub b).mag M) a b := mag_isDist hM a b
  have d2 : IsDist ((d.sub b).mag M) b d := by
    obtain ⟨q1, q2⟩ := mag_isDist hM d b
    exact ⟨q1, by rw [q2]; unfold dist2; ring⟩
  have es : sharpness M a b d * ((a.sub b).mag M * (d.sub b).mag M) = -((b.x - a.x) * (d.x - b.x) + (b.y - a.y) * (d.y - b.y)) := by
    unfold sharpness V2.unit V2.dot V2.scale
    simp only [V2.sub]
    simp only [V2.sub] at p1 p2
    field_simp
    ring
  have pp := mul_pos p1 p2
  constructor
  · intro h
    refine ⟨hab, hbd, fun l l' hl hl' => ?_⟩
    rw [isDist_unique hl d1, isDist_unique hl' d2]
    have := mul_le_mul_of_nonneg_right h pp.le
    rw [es] at this
    linarith
  · intro h
    have := h.2.2 _ _ d1 d2
    by_contra hc'
    have := mul_lt_mul_of_pos_right (not_le.1 hc') pp
    rw [es] at this
    linarith

theorem thin_fold {M : Mth K} (hM : M.Lawful) {c : K} (hc : 0 < c) (rest : Line K) : ∀ (pre : Line K) (a b : V2 K),
    ∃ r, rest.foldl (simplifyStep M (-c)) (pre ++ [a, b]) = pre ++ a :: r ∧ LeftOver c a (b :: rest) r := by
  induction rest with
  | nil => intro pre a b; exact ⟨[b], rfl, .last a b⟩
  | cons v rest ih =>
    intro pre a b
    rw [List.foldl_cons]
    have e1 : (pre ++ [a, b]).getD ((pre ++ [a, b]).length - 2) V2.zero = a := by simp [List.getD]
    have e2 : (pre ++ [a, b]).getD ((pre ++ [a, b]).length - 1) V2.zero = b := by simp [List.getD]
    have e0 : simplifyStep M (-c) (pre ++ [a, b]) v = if sharpness M a b v ≤ -c then (pre ++ [a, b]).set ((pre ++ [a, b]).length - 1) v else (pre ++ [a, b]) ++ [v] := by
      unfold simplifyStep
      rw [e1, e2]
    rw [e0]
    by_cases hs : sharpness M a b v ≤ -c
    · rw [if_pos hs]
      have e3 : (pre ++ [a, b]).set ((pre ++ [a, b]).length - 1) v = pre ++ [a, v] := by simp
      rw [e3]
      obtain ⟨r, h1, h2⟩ := ih pre a v
      exact ⟨r, h1, .drop _ _ _ _ _ ((sharp_flat hM hc a b v).1 hs) h2⟩
    · rw [if_neg hs]
      obtain ⟨r, h1, h2⟩ := ih (pre ++ [a]) b v
      refine ⟨b :: r, ?_, .keep _ _ _ _ _ (fun h => hs ((sharp_flat hM hc a b v).2 h)) h2⟩
      simpa using h1

/-- **C127.** `SimplifyVertexes` drops exactly the vertexes at which the line from the last vertex kept to the next one turns by not more than the tolerance, of which `c` is the cosine.
The first vertex stays, unless the polyline is closed and flat there; then the one before the end is put in its place. -/
theorem C127_vertexes_partial {M : Mth K} (hM : M.Lawful) {c : K} (hc : 0 < c) (v0 v1 : V2 K) (rest : Line K) :
    ∃ u r, simplifyVertexes M c (v0 :: v1 :: rest) = some (u :: r) ∧ LeftOver c v0 (v1 :: rest) r ∧
      (u = v0 ∨ isClosed (v0 :: v1 :: rest) = true ∧ u = (v0 :: r).getD (r.length - 1) ⟨0, 0⟩ ∧ Flat c u v0 (r.getD 0 ⟨0, 0⟩)) := by
  obtain ⟨r, h1, h2⟩ := thin_fold hM hc rest [] v0 v1
  simp only [List.nil_append] at h1
  simp only [simplifyVertexes, h1]
  split
  · rename_i hcl
    rw [Bool.and_eq_true, decide_eq_true_eq] at hcl
    refine ⟨(v0 :: r).getD ((v0 :: r).length - 2) V2.zero, r, by rw [List.set_cons_zero], h2, .inr ⟨hcl.1, rfl, ?_⟩⟩
    exact (sharp_flat hM hc _ _ _).1 hcl.2.le
  · exact ⟨v0, r, rfl, h2, .inl rfl⟩

/-- The line of the next example: a turn that is too sharp, and then one nearly back. -/
def exBend : Line ℝ := [⟨0, 0⟩, ⟨10, 0⟩, ⟨94, 63⟩, ⟨250, 128⟩]

theorem isDist_of {l : ℝ} {p q : V2 ℝ} (h0 : 0 ≤ l) (h : l ^ 2 = dist2 p q) {l' : ℝ} (h' : IsDist l' p q) : l' = l := isDist_unique h' ⟨h0, h⟩

theorem exBend_flat : Flat (17/20 : ℝ) ⟨10, 0⟩ ⟨94, 63⟩ ⟨250, 128⟩ ∧ ¬ Flat (17/20 : ℝ) ⟨0, 0⟩ ⟨10, 0⟩ ⟨94, 63⟩ ∧ Flat (17/20 : ℝ) ⟨0, 0⟩ ⟨10, 0⟩ ⟨250, 128⟩ := by
  have d1 : IsDist (105 : ℝ) ⟨10, 0⟩ ⟨94, 63⟩ := ⟨by norm_num, by norm_num [dist2]⟩
  have d2 : IsDist (169 : ℝ) ⟨94, 63⟩ ⟨250, 128⟩ := ⟨by norm_num, by norm_num [dist2]⟩
  have d3 : IsDist (10 : ℝ) ⟨0, 0⟩ ⟨10, 0⟩ := ⟨by norm_num, by norm_num [dist2]⟩
  have d4 : IsDist (272 : ℝ) ⟨10, 0⟩ ⟨250, 128⟩ := ⟨by norm_num, by norm_num [dist2]⟩
  refine ⟨⟨by norm_num [V2.mk.injEq], by norm_num [V2.mk.injEq], fun l l' h h' => ?_⟩, fun h => ?_, ⟨by norm_num [V2.mk.injEq], by norm_num [V2.mk.injEq], fun l l' h h' => ?_⟩⟩
  · rw [isDist_unique h d1, isDist_unique h' d2]; norm_num
  · have := h.2.2 _ _ d3 d1
    norm_num at this
  · rw [isDist_unique h d3, isDist_unique h' d4]; norm_num

/-- **C127 is violated.** A corner that is sharp enough when it is read may be flat in the result, because the vertex after it is dropped later; simplifying the result once more changes it again. -/
theorem C127_flat_left : simplifyVertexes realMth (17/20) exBend = some [⟨0, 0⟩, ⟨10, 0⟩, ⟨250, 128⟩] ∧ Flat (17/20 : ℝ) ⟨0, 0⟩ ⟨10, 0⟩ ⟨250, 128⟩ ∧
    simplifyVertexes realMth (17/20) [⟨0, 0⟩, ⟨10, 0⟩, ⟨250, 128⟩] = some [⟨0, 0⟩, ⟨250, 128⟩] := by
  obtain ⟨f1, f2, f3⟩ := exBend_flat
  have hc : (0 : ℝ) < 17/20 := by norm_num
  have g1 := (sharp_flat realMth_lawful hc _ _ _).2 f1
  have g2 : ¬ sharpness realMth ⟨0, 0⟩ ⟨10, 0⟩ ⟨94, 63⟩ ≤ -(17/20) := fun h => f2 ((sharp_flat realMth_lawful hc _ _ _).1 h)
  have g3 := (sharp_flat realMth_lawful hc _ _ _).2 f3
  refine ⟨?_, f3, ?_⟩
  · have : isClosed exBend = false := by simp [isClosed, exBend]
    unfold exBend at this ⊢
    simp only [simplifyVertexes, this, Bool.false_and, Bool.false_eq_true, if_false]
    simp [simplifyStep, List.getD, g1, g2]
  · have : isClosed ([⟨0, 0⟩, ⟨10, 0⟩, ⟨250, 128⟩] : Line ℝ) = false := by simp [isClosed]
    simp only [simplifyVertexes, this, Bool.false_and, Bool.false_eq_true, if_false]
    simp [simplifyStep, List.getD, g3]

namespace Spec
/-- The length of the way of `n` steps round a loop of `count` vertexes, from the one with the index `start`; `d` tells distances. -/
def wayLength (d : V2 K → V2 K → K) (verts : Line K) (count start n : Nat) : K :=
  ((List.range n).map fun k => d (verts.getD ((start + k) % count) ⟨0, 0⟩) (verts.getD ((start + k + 1) % count) ⟨0, 0⟩)).sum
end Spec

theorem short_go {M : Mth K} (hM : M.Lawful) {d : V2 K → V2 K → K} (hd : ∀ p q, IsDist (d p q) p q) {verts : Line K} {count : Nat} (hc : 0 < count) (hn : count ≤ verts.length) (min : K)
    (is : List Nat) : ∀ len : K, (∀ i ∈ is, i < count) → len ≤ min →
    isShortGo M verts count min is len = some (decide (len + (is.map fun i => d (verts.getD i ⟨0, 0⟩) (verts.getD ((i + 1) % count) ⟨0, 0⟩)).sum ≤ min)) := by
  induction is with
  | nil => intro len _ hl; simp [isShortGo, hl]
  | cons i is ih =>
    intro len hi hl
    have h1 : i < verts.length := (hi i (List.mem_cons_self ..)).trans_le hn
    have h2 : (i + 1) % count < verts.length := (Nat.mod_lt _ hc).trans_le hn
    have e : (verts[i].sub verts[(i + 1) % count]).mag M = d (verts.getD i ⟨0, 0⟩) (verts.getD ((i + 1) % count) ⟨0, 0⟩) := by
      rw [show verts.getD i ⟨0, 0⟩ = verts[i] by simp [List.getD, h1], show verts.getD ((i + 1) % count) ⟨0, 0⟩ = verts[(i + 1) % count] by simp [List.getD, h2]]
      exact isDist_unique (mag_isDist hM _ _) (hd _ _)
    unfold isShortGo
    rw [List.getElem?_eq_getElem h1, List.getElem?_eq_getElem h2]
    dsimp only
    rw [e, List.map_cons, List.sum_cons]
    have hpos : ∀ js : List Nat, 0 ≤ (js.map fun i => d (verts.getD i ⟨0, 0⟩) (verts.getD ((i + 1) % count) ⟨0, 0⟩)).sum := by
      intro js
      apply List.sum_nonneg
      intro x hx
      obtain ⟨j, -, rfl⟩ := List.mem_map.1 hx
      exact (hd _ _).1
    split
    · rename_i hgt
      have := hpos is
      rw [eq_comm, Option.some.injEq, decide_eq_false_iff_not, not_le]
      linarith
    · rename_i hgt
      rw [ih _ (fun j hj => hi j (List.mem_cons_of_mem _ hj)) (not_lt.1 hgt), add_assoc]

/-- **C127.** `IsShort` tells whether the way round the loop from one vertex to another is not longer than `min`. -/
theorem C127_short {M : Mth K} (hM : M.Lawful) {d : V2 K → V2 K → K} (hd : ∀ p q, IsDist (d p q) p q) (verts : Line K) {count start n : Nat} (hs : start < count) (hn : n < count)
    (hv : count ≤ verts.length) {min : K} (hmin : 0 ≤ min) :
    isShort M verts count start ((start + n) % count) min = some (decide (wayLength d verts count start n ≤ min)) := by
  unfold isShort
  rw [short_go hM hd (by omega) hv min _ 0 ?_ hmin, zero_add]
  · unfold loopFrom wayLength
    rw [gap_to count start n hs hn, List.map_map]
    congr 5
    funext k
    simp only [Function.comp, Nat.mod_add_mod]
  · intro i hi
    obtain ⟨k, -, rfl⟩ := List.mem_map.1 hi
    exact Nat.mod_lt _ (by omega)

/-- A square: three of its sides are not short for 2, but they are for 3. -/
example : (0 : Nat) < 4 ∧ 3 < 4 ∧ 4 ≤ ([⟨0, 0⟩, ⟨1, 0⟩, ⟨1, 1⟩, ⟨0, 1⟩, ⟨0, 0⟩] : Line ℚ).length ∧
    isShort toyMth ([⟨0, 0⟩, ⟨1, 0⟩, ⟨1, 1⟩, ⟨0, 1⟩, ⟨0, 0⟩] : Line ℚ) 4 2 1 2 = some false ∧ isShort toyMth ([⟨0, 0⟩, ⟨1, 0⟩, ⟨1, 1⟩, ⟨0, 1⟩, ⟨0, 0⟩] : Line ℚ) 4 2 1 3 = some true := by
  decide +kernel

end Cm
