import Verif.Props.Polyline
import Verif.Props.Collide
import Mathlib.Data.List.Chain
import Mathlib.Tactic.Linarith
import Mathlib.Tactic.FieldSimp
import Mathlib.Tactic.IntervalCases
/-! # C54, C82: simplifying polylines -/
set_option linter.unusedSectionVars false
set_option linter.unusedSimpArgs false
set_option linter.unusedVariables false

namespace Cm
open Spec
variable {K : Type} [Field K] [LinearOrder K] [IsStrictOrderedRing K]

/-! ## SimplifyVertexes -/

/-- The loop keeps a subsequence of what it has read, with its first and last vertex. -/
theorem simplify_fold (M : Mth K) (c : K) (rest : Line K) : ∀ (pre red : Line K), red.Sublist pre → red.head? = pre.head? →
    red.getLast? = pre.getLast? → 2 ≤ red.length →
    (rest.foldl (simplifyStep M c) red).Sublist (pre ++ rest) ∧ (rest.foldl (simplifyStep M c) red).head? = (pre ++ rest).head? ∧
    (rest.foldl (simplifyStep M c) red).getLast? = (pre ++ rest).getLast? ∧ 2 ≤ (rest.foldl (simplifyStep M c) red).length := by
  induction rest with
  | nil => intro pre red h1 h2 h3 h4; simpa using ⟨h1, h2, h3, h4⟩
  | cons v rest ih =>
    intro pre red h1 h2 h3 h4
    have hpre : 2 ≤ pre.length := h4.trans h1.length_le
    have e : pre ++ v :: rest = (pre ++ [v]) ++ rest := by simp
    rw [List.foldl_cons, e]
    have hh : (pre ++ [v]).head? = pre.head? := by
      cases pre with
      | nil => simp at hpre
      | cons a pre => rfl
    have hl : (pre ++ [v]).getLast? = some v := by simp
    apply ih
    · unfold simplifyStep
      split
      · rw [show red.set (red.length - 1) v = red.dropLast ++ [v] by
          rw [List.dropLast_eq_take, List.set_eq_take_append_cons_drop, if_pos (by omega), List.drop_of_length_le (by omega)]]
        exact List.Sublist.append ((List.dropLast_sublist red).trans h1) (List.Sublist.refl _)
      · exact List.Sublist.append h1 (List.Sublist.refl _)
    · rw [hh, ← h2]
      unfold simplifyStep
      match red, h4 with
      | a :: b :: red, _ => split <;> simp
    · rw [hl]
      unfold simplifyStep
      split
      · rw [List.getLast?_eq_getElem?, List.length_set, List.getElem?_set_self (by omega)]
      · simp
    · unfold simplifyStep
      split <;> simp <;> omega

/-- **C54.** `SimplifyVertexes` on at least two vertexes does not crash, and on an open polyline returns a subsequence with the same first and
last vertex. -/
theorem C54_vertexes_open (M : Mth K) (c : K) (verts : Line K) (h : 2 ≤ verts.length) (ho : isClosed verts = false) :
    ∃ r, simplifyVertexes M c verts = some r ∧ r.Sublist verts ∧ r.head? = verts.head? ∧ r.getLast? = verts.getLast? := by
  match verts, h with
  | v0 :: v1 :: rest, _ =>
    obtain ⟨h1, h2, h3, h4⟩ := simplify_fold M (-c) rest [v0, v1] [v0, v1] (List.Sublist.refl _) rfl rfl (by simp)
    refine ⟨_, ?_, h1, h2, h3⟩
    simp [simplifyVertexes, ho]

/-- **C54, partial.** On a closed polyline it does not crash either: the result has at least two vertexes, all of them vertexes of the
polyline, and the same last vertex; apart from the first vertex it is a subsequence. The full statement, that the first vertex is kept too, is
false: `C54_vertexes_closed`. -/
theorem C54_vertexes_partial (M : Mth K) (c : K) (verts : Line K) (h : 2 ≤ verts.length) :
    ∃ r, simplifyVertexes M c verts = some r ∧ 2 ≤ r.length ∧ (∀ v ∈ r, v ∈ verts) ∧ r.tail.Sublist verts.tail ∧ r.getLast? = verts.getLast? := by
  match verts, h with
  | v0 :: v1 :: rest, _ =>
    obtain ⟨h1, h2, h3, h4⟩ := simplify_fold M (-c) rest [v0, v1] [v0, v1] (List.Sublist.refl _) rfl rfl (by simp)
    set red := rest.foldl (simplifyStep M (-c)) [v0, v1] with hred
    have htail : red.tail.Sublist (v1 :: rest) := by simpa using h1.tail
    simp only [simplifyVertexes, ← hred]
    split
    · refine ⟨_, rfl, by simpa using h4, fun v hv => ?_, ?_, ?_⟩
      · rcases List.mem_or_eq_of_mem_set hv with hv | rfl
        · exact h1.subset hv
        · rw [getD_eq_mem red _ (by omega)]
          exact h1.subset (List.getElem_mem _)
      · match red, h4, htail with
        | a :: b :: red, _, ht => simpa using ht
      · rw [List.getLast?_eq_getElem?, List.length_set, List.getElem?_set_ne (by omega), ← List.getLast?_eq_getElem?, h3]
        rfl
    · exact ⟨_, rfl, h4, fun v hv => h1.subset hv, htail, h3⟩
where
  getD_eq_mem (l : Line K) (i : Nat) (h : i < l.length) : l.getD i V2.zero = l[i] := by simp [List.getD, h]

/-- **C54 is violated.** A closed square whose first vertex lies in the middle of a side: the vertex is replaced at the front but not at the
back, so the result is not closed and is not a subsequence of the polyline. -/
theorem C54_vertexes_closed : ∃ verts : Line ℚ, isClosed verts = true ∧ ∀ r, simplifyVertexes gridMth (99 / 100) verts = some r →
    isClosed r = false ∧ ¬ r.Sublist verts := by
  refine ⟨[⟨1, 0⟩, ⟨2, 0⟩, ⟨2, 2⟩, ⟨0, 2⟩, ⟨0, 0⟩, ⟨1, 0⟩], by decide +kernel, ?_⟩
  intro r hr
  have : simplifyVertexes gridMth (99 / 100) ([⟨1, 0⟩, ⟨2, 0⟩, ⟨2, 2⟩, ⟨0, 2⟩, ⟨0, 0⟩, ⟨1, 0⟩] : Line ℚ) =
    some [⟨0, 0⟩, ⟨2, 0⟩, ⟨2, 2⟩, ⟨0, 2⟩, ⟨0, 0⟩, ⟨1, 0⟩] := by decide +kernel
  rw [this, Option.some.injEq] at hr
  subst hr
  decide +kernel

/-- An open polyline with a straight vertex, which is dropped. -/
example : isClosed ([⟨0, 0⟩, ⟨1, 0⟩, ⟨2, 0⟩, ⟨2, 2⟩] : Line ℚ) = false ∧
    simplifyVertexes gridMth (99 / 100) ([⟨0, 0⟩, ⟨1, 0⟩, ⟨2, 0⟩, ⟨2, 2⟩] : Line ℚ) = some [⟨0, 0⟩, ⟨2, 0⟩, ⟨2, 2⟩] := by decide +kernel

/-! ## Indexes around the loop -/

theorem mod_two (x n : Nat) (h : x < 2 * n) : x % n = if x < n then x else x - n := by
  split
  · exact Nat.mod_eq_of_lt ‹_›
  · rw [Nat.mod_eq_sub_mod (by omega), Nat.mod_eq_of_lt (by omega)]

/-- The indexes strictly between `start` and `stop`, going around. -/
def inner (length start stop : Nat) : List Nat := (List.range (gap length start stop - 1)).map fun k => (start + (k + 1)) % length

theorem loopFrom_tail (n s e : Nat) : (loopFrom n s e).tail = inner n s e := by
  unfold loopFrom inner
  cases gap n s e with
  | zero => rfl
  | succ g => rw [List.range_succ_eq_map]; simp [Function.comp_def, Nat.add_comm]

theorem gap_lt (n s e : Nat) (hs : s < n) : gap n s e < n := Nat.mod_lt _ (by omega)

theorem gap_self (n s : Nat) (hs : s < n) : gap n s s = 0 := by
  unfold gap
  rw [show s + n - s = n by omega, Nat.mod_self]

theorem gap_to (n s k : Nat) (hs : s < n) (hk : k < n) : gap n s ((s + k) % n) = k := by
  unfold gap
  rw [mod_two (s + k) n (by omega)]
  split
  · rw [show s + k + n - s = k + n by omega, Nat.add_mod_right, Nat.mod_eq_of_lt hk]
  · rw [show s + k - n + n - s = k by omega, Nat.mod_eq_of_lt hk]

theorem gap_end (n s e : Nat) (hs : s < n) (he : e < n) : (s + gap n s e) % n = e := by
  unfold gap
  rw [mod_two (e + n - s) n (by omega)]
  split
  · rw [show s + (e + n - s) = e + n by omega, Nat.add_mod_right, Nat.mod_eq_of_lt he]
  · rw [show s + (e + n - s - n) = e by omega, Nat.mod_eq_of_lt he]

theorem gap_from (n s e k : Nat) (hs : s < n) (he : e < n) (hk : k ≤ gap n s e) : gap n ((s + k) % n) e = gap n s e - k := by
  have hg := gap_lt n s e hs
  have h1 := gap_end n s e hs he
  have h2 : ((s + k) % n + (gap n s e - k)) % n = e := by
    rw [Nat.mod_add_mod, show s + k + (gap n s e - k) = s + gap n s e by omega, h1]
  have := gap_to n ((s + k) % n) (gap n s e - k) (Nat.mod_lt _ (by omega)) (by omega)
  rwa [h2] at this

theorem range_split (g k : Nat) (hk : k < g) : List.range g = List.range k ++ k :: (List.range (g - k - 1)).map (fun j => k + 1 + j) := by
  conv_lhs => rw [show g = (k + 1) + (g - k - 1) by omega, List.range_add, List.range_succ]
  simp

theorem inner_split (n s e m : Nat) (hs : s < n) (he : e < n) (hm : m ∈ inner n s e) :
    inner n s e = inner n s m ++ m :: inner n m e ∧ m < n ∧ gap n s m < gap n s e ∧ gap n m e < gap n s e := by
  unfold inner at hm
  obtain ⟨k, hk, rfl⟩ := List.mem_map.1 hm
  rw [List.mem_range] at hk
  have hg := gap_lt n s e hs
  have h1 := gap_to n s (k + 1) hs (by omega)
  have h2 := gap_from n s e (k + 1) hs he (by omega)
  refine ⟨?_, Nat.mod_lt _ (by omega), by omega, by omega⟩
  unfold inner
  rw [h1, h2, range_split (gap n s e - 1) k hk, List.map_append, List.map_cons, List.map_map]
  congr 2
  · rw [show gap n s e - 1 - k - 1 = gap n s e - (k + 1) - 1 by omega]
    apply List.map_congr_left
    intro j _
    simp only [Function.comp_apply]
    rw [Nat.mod_add_mod]
    congr 1
    omega

theorem inner_lt (n s e i : Nat) (hs : s < n) (hi : i ∈ inner n s e) : i < n := by
  unfold inner at hi
  obtain ⟨k, _, rfl⟩ := List.mem_map.1 hi
  exact Nat.mod_lt _ (by omega)

theorem inner_nil (n s e : Nat) (h : gap n s e < 2) : inner n s e = [] := by
  unfold inner
  rw [show gap n s e - 1 = 0 by omega]
  rfl

/-! ## The recursion -/

theorem scanMax_spec (n : V2 K) (d : K) (verts : Line K) (is : List Nat) : ∀ (mx : K) (mi : Nat), (∀ i ∈ is, i < verts.length) →
    ∃ mx' mi', scanMax n d verts is mx mi = some (mx', mi') ∧ mx ≤ mx' ∧ (∀ i ∈ is, |n.dot (verts.getD i V2.zero) - d| ≤ mx') ∧
      ((mx' = mx ∧ mi' = mi) ∨ (mx < mx' ∧ mi' ∈ is ∧ mx' = |n.dot (verts.getD mi' V2.zero) - d|)) := by
  induction is with
  | nil => intro mx mi _; exact ⟨mx, mi, rfl, le_refl _, by simp, Or.inl ⟨rfl, rfl⟩⟩
  | cons i is ih =>
    intro mx mi h
    have hi : i < verts.length := h i (by simp)
    have e1 : verts[i]? = some verts[i] := List.getElem?_eq_getElem hi
    have e2 : verts.getD i V2.zero = verts[i] := by simp [List.getD, hi]
    rw [scanMax, e1]
    simp only
    split
    · rename_i hgt
      obtain ⟨a, b, h1, h2, h3, h4⟩ := ih |n.dot verts[i] - d| i fun j hj => h j (by simp [hj])
      refine ⟨a, b, h1, by linarith, ?_, ?_⟩
      · intro j hj
        rcases List.mem_cons.1 hj with rfl | hj
        · rw [e2]; exact h2
        · exact h3 j hj
      · right
        rcases h4 with ⟨rfl, rfl⟩ | ⟨h4, h5, h6⟩
        · exact ⟨hgt, by simp, by rw [e2]⟩
        · exact ⟨by linarith, by simp [h5], h6⟩
    · rename_i hle
      obtain ⟨a, b, h1, h2, h3, h4⟩ := ih mx mi fun j hj => h j (by simp [hj])
      refine ⟨a, b, h1, h2, ?_, ?_⟩
      · intro j hj
        rcases List.mem_cons.1 hj with rfl | hj
        · rw [e2]; exact (not_lt.1 hle).trans h2
        · exact h3 j hj
      · rcases h4 with h4 | ⟨h4, h5, h6⟩
        · exact Or.inl h4
        · exact Or.inr ⟨h4, by simp [h5], h6⟩

namespace Spec
/-- The point `v` is within `tol` of the straight line through `a` and `b`: the area it spans with them is at most `tol` times their distance. -/
def NearLine (tol : K) (a b v : V2 K) : Prop := ((b.sub a).cross (v.sub a)) ^ 2 ≤ tol ^ 2 * dist2 a b

/-- Every vertex between the kept indexes `p` and `q` is within `tol` of the line through them. -/
def Bridged (tol : K) (verts : Line K) (length : Nat) (p q : Nat) : Prop :=
  ∀ i ∈ inner length p q, NearLine tol (verts.getD p V2.zero) (verts.getD q V2.zero) (verts.getD i V2.zero)
end Spec

theorem nearLine_of (M : Mth K) (hM : M.Lawful) (tol : K) (a b v : V2 K) (ht : 0 ≤ tol)
    (h : |((b.sub a).perp.unit M).dot v - ((b.sub a).perp.unit M).dot a| ≤ tol) : NearLine tol a b v := by
  unfold NearLine
  by_cases hab : a = b
  · subst hab
    have : (a.sub a).cross (v.sub a) = 0 := by simp [V2.sub, V2.cross]
    rw [this]
    have := dist2_nonneg a a
    have := sq_nonneg tol
    nlinarith [mul_nonneg (sq_nonneg tol) (dist2_nonneg a a)]
  · have hne : (b.sub a).perp ≠ V2.zero := by
      intro e
      apply hab
      simp only [V2.sub, V2.perp, V2.zero, V2.mk.injEq] at e
      obtain ⟨e1, e2⟩ := e
      cases a; cases b
      simp only [V2.mk.injEq] at *
      constructor <;> linarith
    set w := (b.sub a).perp with hw
    have hm : 0 < w.mag M := lt_of_le_of_ne (mag_nonneg hM w) (fun e => hne (mag_eq_zero hM w e.symm))
    have hsq := mag_sq hM w
    have e : (w.unit M).dot v - (w.unit M).dot a = (b.sub a).cross (v.sub a) / w.mag M := by
      unfold V2.unit
      rw [hw]
      simp only [V2.scale, V2.dot, V2.cross, V2.sub, V2.perp]
      ring
    rw [e, abs_div, abs_of_pos hm, div_le_iff₀ hm] at h
    have hd : dist2 a b = w.mag M ^ 2 := by
      rw [sq, hsq, hw]
      simp only [dist2, V2.lengthSq, V2.sub, V2.perp, V2.dot]
      ring
    rw [hd, ← mul_pow, ← sq_abs]
    exact pow_le_pow_left₀ (abs_nonneg _) h 2

/-- **C54, C82: the recursion.** With a tolerance that is not negative and no two vertexes nearer than `min`, recursion not deeper than the
number of vertexes between returns what it was given followed by a subsequence of the vertexes between `start` and `stop`, and every vertex left
out is within `tol` of the line through the kept vertexes around it. -/
theorem douglas_spec (M : Mth K) (hM : M.Lawful) (verts : Line K) (n : Nat) (min tol : K) (ht : 0 ≤ tol) (hn : n ≤ verts.length)
    (hfar : ∀ i j, i < n → j < n → i ≠ j → min * min ≤ (verts.getD i V2.zero).distanceSq (verts.getD j V2.zero)) :
    ∀ (fuel : Nat) (red : Line K) (s e : Nat), s < n → e < n → gap n s e < fuel →
    ∃ idx : List Nat, douglasPeucker M verts n min tol fuel red s e = some (red ++ idx.map fun i => verts.getD i V2.zero) ∧
      idx.Sublist (inner n s e) ∧ (s :: idx ++ [e]).IsChain (Bridged tol verts n) := by
  intro fuel
  induction fuel with
  | zero => intro red s e _ _ h; omega
  | succ fuel ih =>
    intro red s e hs he hf
    rw [douglasPeucker]
    split
    · rename_i hg
      refine ⟨[], by simp, by simp, ?_⟩
      simp only [List.cons_append, List.nil_append, List.isChain_cons_cons, List.isChain_singleton, and_true]
      intro i hi
      rw [inner_nil n s e hg] at hi
      simp at hi
    · rename_i hg
      have hse : s ≠ e := by
        rintro rfl
        rw [gap_self n s hs] at hg
        omega
      have hs' : s < verts.length := by omega
      have he' : e < verts.length := by omega
      have d1 : verts.getD s V2.zero = verts[s] := by simp [List.getD, hs']
      have d2 : verts.getD e V2.zero = verts[e] := by simp [List.getD, he']
      have hnf := hfar s e hs he hse
      rw [d1, d2] at hnf
      rw [List.getElem?_eq_getElem hs', List.getElem?_eq_getElem he', loopFrom_tail]
      simp only
      rw [if_neg (not_lt.2 hnf)]
      set nn := (verts[e].sub verts[s]).perp.unit M with hnn
      obtain ⟨mx, mi, h1, h2, h3, h4⟩ := scanMax_spec nn (nn.dot verts[s]) verts (inner n s e) 0 s
        fun i hi => (inner_lt n s e i hs hi).trans_le hn
      rw [h1]
      simp only
      split
      · rename_i hgt
        obtain ⟨h5, h6⟩ : 0 < mx ∧ mi ∈ inner n s e := by
          rcases h4 with ⟨rfl, -⟩ | ⟨h4, h5, -⟩
          · linarith
          · exact ⟨h4, h5⟩
        obtain ⟨i1, i2, i3, i4⟩ := inner_split n s e mi hs he h6
        obtain ⟨x1, a1, b1, c1⟩ := ih red s mi hs i2 (by omega)
        have hmi : mi < verts.length := by omega
        have d3 : verts.getD mi V2.zero = verts[mi] := by simp [List.getD, hmi]
        rw [a1, List.getElem?_eq_getElem hmi]
        simp only
        obtain ⟨x2, a2, b2, c2⟩ := ih ((red ++ x1.map fun i => verts.getD i V2.zero) ++ [verts[mi]]) mi e i2 he (by omega)
        refine ⟨x1 ++ mi :: x2, ?_, ?_, ?_⟩
        · rw [a2, ← d3]
          simp
        · rw [i1]
          exact List.Sublist.append b1 (List.Sublist.cons_cons _ b2)
        · have : s :: (x1 ++ mi :: x2) ++ [e] = (s :: x1) ++ mi :: (x2 ++ [e]) := by simp
          rw [this, List.isChain_split]
          exact ⟨c1, c2⟩
      · rename_i hle
        refine ⟨[], by simp, by simp, ?_⟩
        simp only [List.cons_append, List.nil_append, List.isChain_cons_cons, List.isChain_singleton, and_true]
        intro i hi
        rw [d1, d2]
        exact nearLine_of M hM tol _ _ _ ht ((h3 i hi).trans (not_lt.1 hle))

/-! ## The two extreme vertexes -/

namespace Spec
/-- Lexicographic order of points. -/
def LexLt (u v : V2 K) : Prop := u.x < v.x ∨ (u.x = v.x ∧ u.y < v.y)
end Spec

theorem lex_irrefl (u : V2 K) : ¬ LexLt u u := by unfold LexLt; simp

theorem lex_trans {u v w : V2 K} (h1 : LexLt u v) (h2 : LexLt v w) : LexLt u w := by
  unfold LexLt at *
  rcases h1 with h1 | ⟨h1, h1'⟩ <;> rcases h2 with h2 | ⟨h2, h2'⟩
  · exact Or.inl (h1.trans h2)
  · exact Or.inl (h2 ▸ h1)
  · exact Or.inl (h1 ▸ h2)
  · exact Or.inr ⟨h1.trans h2, h1'.trans h2'⟩

theorem lex_tri {u v : V2 K} (h1 : ¬ LexLt u v) (h2 : ¬ LexLt v u) : u = v := by
  unfold LexLt at *
  push Not at h1 h2
  have hx : u.x = v.x := le_antisymm h2.1 h1.1
  cases u; cases v
  simp only [V2.mk.injEq] at *
  exact ⟨hx, le_antisymm (h2.2 hx.symm) (h1.2 hx)⟩

/-- What the loop of `loopIndexes` has found after the vertexes `pre`. -/
def LoopInv (pre : List (V2 K)) (st : Nat × Nat × V2 K × V2 K) : Prop :=
  pre[st.1]? = some st.2.2.1 ∧ pre[st.2.1]? = some st.2.2.2 ∧ ∀ v ∈ pre, ¬ LexLt v st.2.2.1 ∧ ¬ LexLt st.2.2.2 v

theorem loopGo_spec (l : List (V2 K)) : ∀ (pre : List (V2 K)) (st : Nat × Nat × V2 K × V2 K), LoopInv pre st →
    LoopInv (pre ++ l) (loopGo l pre.length st) := by
  induction l with
  | nil => intro pre st h; simpa [loopGo] using h
  | cons v l ih =>
    intro pre st h
    rw [loopGo, show pre ++ v :: l = (pre ++ [v]) ++ l by simp, show pre.length + 1 = (pre ++ [v]).length by simp]
    apply ih
    obtain ⟨h1, h2, h3⟩ := h
    have l1 : st.1 < pre.length := (List.getElem?_eq_some_iff.1 h1).1
    have l2 : st.2.1 < pre.length := (List.getElem?_eq_some_iff.1 h2).1
    have hmm : ¬ LexLt st.2.2.2 st.2.2.1 := (h3 _ (List.mem_of_getElem? h1)).2
    unfold loopStep
    split
    · rename_i hv
      have hv : LexLt v st.2.2.1 := hv
      refine ⟨by simp, by rw [List.getElem?_append_left l2, h2], ?_⟩
      intro u hu
      rcases List.mem_append.1 hu with hu | hu
      · exact ⟨fun hc => (h3 u hu).1 (lex_trans hc hv), (h3 u hu).2⟩
      · rw [List.mem_singleton] at hu
        subst hu
        exact ⟨lex_irrefl _, fun hc => hmm (lex_trans hc hv)⟩
    · rename_i hv
      have hv : ¬ LexLt v st.2.2.1 := hv
      split
      · rename_i hw
        have hw : LexLt st.2.2.2 v := by
          rcases hw with hw | ⟨hw, hw'⟩
          · exact Or.inl hw
          · exact Or.inr ⟨hw.symm, hw'⟩
        refine ⟨by rw [List.getElem?_append_left l1, h1], by simp, ?_⟩
        intro u hu
        rcases List.mem_append.1 hu with hu | hu
        · exact ⟨(h3 u hu).1, fun hc => (h3 u hu).2 (lex_trans hw hc)⟩
        · rw [List.mem_singleton] at hu
          subst hu
          exact ⟨hv, lex_irrefl _⟩
      · rename_i hw
        refine ⟨by rw [List.getElem?_append_left l1, h1], by rw [List.getElem?_append_left l2, h2], ?_⟩
        intro u hu
        rcases List.mem_append.1 hu with hu | hu
        · exact h3 u hu
        · rw [List.mem_singleton] at hu
          subst hu
          refine ⟨hv, fun hc => hw ?_⟩
          rcases hc with hc | ⟨hc, hc'⟩
          · exact Or.inl hc
          · exact Or.inr ⟨hc.symm, hc'⟩

/-- `loopIndexes` finds the lexicographically first and last vertex; they differ unless all vertexes are the same. -/
theorem loopIndexes_spec (verts : List (V2 K)) (h : verts ≠ []) : ∃ a b, verts[(loopIndexes verts).1]? = some a ∧
    verts[(loopIndexes verts).2]? = some b ∧ (∀ v ∈ verts, ¬ LexLt v a ∧ ¬ LexLt b v) ∧
    ((loopIndexes verts).1 = (loopIndexes verts).2 → ∀ v ∈ verts, v = a) := by
  cases verts with
  | nil => exact absurd rfl h
  | cons v l =>
    have := loopGo_spec l [v] (0, 0, v, v) ⟨rfl, rfl, by simp [lex_irrefl]⟩
    obtain ⟨h1, h2, h3⟩ := this
    refine ⟨_, _, h1, h2, h3, fun e u hu => ?_⟩
    have e' : (loopGo l 1 (0, 0, v, v)).1 = (loopGo l 1 (0, 0, v, v)).2.1 := e
    have h1' := h1
    simp only [List.length_singleton] at h1 h2 h3
    rw [e'] at h1
    have hab := h1.symm.trans h2
    rw [Option.some.injEq] at hab
    obtain ⟨h4, h5⟩ := h3 u hu
    rw [← hab] at h5
    exact lex_tri h4 h5

/-! ## SimplifyCurves -/

namespace Spec
/-- Between different indexes below `n`, no two vertexes are nearer than half the tolerance. -/
def Spread (tol : K) (verts : Line K) (n : Nat) : Prop :=
  ∀ i j, i < n → j < n → i ≠ j → (tol / 2) ^ 2 ≤ dist2 (verts.getD i V2.zero) (verts.getD j V2.zero)
end Spec

theorem distanceSq_dist2 (a b : V2 K) : a.distanceSq b = dist2 a b := by
  simp only [V2.distanceSq, V2.lengthSq, V2.dot, V2.sub, dist2]
  ring

theorem inner_open (n : Nat) (h : 2 ≤ n) : 0 :: inner n 0 (n - 1) ++ [n - 1] = List.range n := by
  have hg : gap n 0 (n - 1) = n - 1 := by
    unfold gap
    rw [show n - 1 + n - 0 = (n - 1) + n by omega, Nat.add_mod_right, Nat.mod_eq_of_lt (by omega)]
  unfold inner
  rw [hg]
  obtain ⟨m, rfl⟩ : ∃ m, n = m + 2 := ⟨n - 2, by omega⟩
  rw [show m + 2 - 1 = m + 1 by omega, show m + 1 - 1 = m by omega, List.range_succ, List.range_succ_eq_map]
  simp only [List.cons_append, List.cons.injEq, true_and]
  congr 1
  apply List.map_congr_left
  intro k hk
  rw [List.mem_range] at hk
  rw [Nat.mod_eq_of_lt (by omega)]
  omega

theorem map_getD_range (verts : Line K) : (List.range verts.length).map (fun i => verts.getD i V2.zero) = verts := by
  apply List.ext_getElem
  · simp
  · intro i h1 h2
    simp [List.getD, h2]

/-- **C54, C82, partial.** On an open polyline of at least two vertexes no two of which are nearer than half a tolerance that is not negative,
`SimplifyCurves` does not crash and keeps a subsequence of the vertexes with the first and the last one, and every vertex left out is within the
tolerance of the line through the kept vertexes before and after it. Without the condition on near vertexes it crashes: `C54_curves_crash`. -/
theorem C54_curves_open_partial (M : Mth K) (hM : M.Lawful) (tol : K) (ht : 0 ≤ tol) (verts : Line K) (h : 2 ≤ verts.length)
    (ho : isClosed verts = false) (hfar : Spread tol verts verts.length) (depth : Nat) (hd : verts.length ≤ depth) :
    ∃ kept : List Nat, simplifyCurves M tol depth verts = some (kept.map fun i => verts.getD i V2.zero) ∧
      kept.Sublist (List.range verts.length) ∧ kept.head? = some 0 ∧ kept.getLast? = some (verts.length - 1) ∧
      kept.IsChain (Bridged tol verts verts.length) := by
  have hs : 0 < verts.length := by omega
  have he : verts.length - 1 < verts.length := by omega
  obtain ⟨idx, h1, h2, h3⟩ := douglas_spec M hM verts verts.length (tol / 2) tol ht (le_refl _)
    (fun i j hi hj hij => by rw [distanceSq_dist2, ← sq]; exact hfar i j hi hj hij) depth [verts[0]] 0 (verts.length - 1) hs he
    ((gap_lt _ _ _ hs).trans_le hd)
  refine ⟨0 :: idx ++ [verts.length - 1], ?_, ?_, rfl, List.getLast?_concat, h3⟩
  · unfold simplifyCurves
    simp only [ho, List.getElem?_eq_getElem hs, List.getElem?_eq_getElem he, h1]
    simp [List.getD, hs, he]
  · rw [← inner_open verts.length h]
    exact List.Sublist.append (List.Sublist.cons_cons _ h2) (List.Sublist.refl _)

/-- **C54.** The same in terms of vertexes only. -/
theorem C54_curves_sublist_partial (M : Mth K) (hM : M.Lawful) (tol : K) (ht : 0 ≤ tol) (verts : Line K) (h : 2 ≤ verts.length)
    (ho : isClosed verts = false) (hfar : Spread tol verts verts.length) (depth : Nat) (hd : verts.length ≤ depth) :
    ∃ r, simplifyCurves M tol depth verts = some r ∧ r.Sublist verts ∧ r.head? = verts.head? ∧ r.getLast? = verts.getLast? := by
  obtain ⟨kept, h1, h2, h3, h4, -⟩ := C54_curves_open_partial M hM tol ht verts h ho hfar depth hd
  refine ⟨_, h1, ?_, ?_, ?_⟩
  · have := h2.map fun i => verts.getD i V2.zero
    rwa [map_getD_range] at this
  · rw [List.head?_map, h3]
    match verts, h with
    | a :: b :: l, _ => rfl
  · rw [List.getLast?_map, h4, List.getLast?_eq_getElem?]
    have he : verts.length - 1 < verts.length := by omega
    simp [List.getD, he]

theorem inner_loop (n s e : Nat) (hs : s < n) (he : e < n) (hse : s ≠ e) :
    s :: inner n s e ++ e :: inner n e s = (List.range n).map fun k => (s + k) % n := by
  have hg := gap_lt n s e hs
  have hpos : 0 < gap n s e := by
    by_contra hc
    have := gap_end n s e hs he
    rw [show gap n s e = 0 by omega, Nat.add_zero, Nat.mod_eq_of_lt hs] at this
    exact hse this
  have h1 := gap_end n s e hs he
  have h2 : gap n e s = n - gap n s e := by
    have : (e + (n - gap n s e)) % n = s := by
      generalize gap n s e = g at *
      rw [← h1, Nat.mod_add_mod, show s + g + (n - g) = s + n by omega, Nat.add_mod_right, Nat.mod_eq_of_lt hs]
    have h3 := gap_to n e (n - gap n s e) he (by omega)
    rwa [this] at h3
  have e1 : s :: inner n s e = (List.range (gap n s e)).map fun k => (s + k) % n := by
    unfold inner
    conv_rhs => rw [show gap n s e = (gap n s e - 1) + 1 by omega, List.range_succ_eq_map]
    simp only [List.map_cons, List.map_map, Nat.add_zero, Nat.mod_eq_of_lt hs]
    rfl
  have e2 : e :: inner n e s = (List.range (gap n e s)).map fun k => (e + k) % n := by
    unfold inner
    conv_rhs => rw [show gap n e s = (gap n e s - 1) + 1 by omega, List.range_succ_eq_map]
    simp only [List.map_cons, List.map_map, Nat.add_zero, Nat.mod_eq_of_lt he]
    rfl
  rw [e1, e2, h2]
  conv_rhs => rw [show n = gap n s e + (n - gap n s e) by omega, List.range_add, List.map_append, List.map_map]
  rw [show gap n s e + (n - gap n s e) = n by omega]
  congr 1
  apply List.map_congr_left
  intro k _
  simp only [Function.comp_apply]
  conv_lhs => rw [← h1, Nat.mod_add_mod]
  congr 1
  omega

/-- **C54, C82, partial.** On a closed polyline with two different vertexes, no two of which (but the first and the last) are nearer than half
the tolerance, `SimplifyCurves` does not crash: starting at a vertex `s`, it keeps a subsequence of the way around and comes back to `s`, so the
result is closed, and every vertex left out is within the tolerance of the line through its kept neighbours. -/
theorem C54_curves_closed_partial (M : Mth K) (hM : M.Lawful) (tol : K) (ht : 0 ≤ tol) (verts : Line K) (hc : isClosed verts = true)
    (hdiff : ∃ u ∈ verts, ∃ v ∈ verts, u ≠ v) (hfar : Spread tol verts (verts.length - 1)) (depth : Nat) (hd : verts.length ≤ depth) :
    ∃ (s : Nat) (kept : List Nat), s < verts.length - 1 ∧
      simplifyCurves M tol depth verts = some ((s :: kept ++ [s]).map fun i => verts.getD i V2.zero) ∧
      (s :: kept).Sublist ((List.range (verts.length - 1)).map fun k => (s + k) % (verts.length - 1)) ∧ kept ≠ [] ∧
      (s :: kept ++ [s]).IsChain (Bridged tol verts (verts.length - 1)) := by
  have hlen : 1 < verts.length := by
    have hc' := hc
    unfold isClosed at hc'
    simp only [Bool.and_eq_true, decide_eq_true_eq] at hc'
    exact hc'.1
  have hhl : verts.head? = verts.getLast? := by
    have hc' := hc
    unfold isClosed at hc'
    simp only [Bool.and_eq_true, beq_iff_eq] at hc'
    exact hc'.2
  set n := verts.length - 1 with hn
  have htake : verts.take n ≠ [] := by
    intro e
    have := congrArg List.length e
    rw [List.length_take, List.length_nil] at this
    omega
  obtain ⟨a, b, i1, i2, i3, i4⟩ := loopIndexes_spec (verts.take n) htake
  set s := (loopIndexes (verts.take n)).1 with hs
  set e := (loopIndexes (verts.take n)).2 with he
  have hsn : s < n := by
    have := (List.getElem?_eq_some_iff.1 i1).1
    simp at this
    omega
  have hen : e < n := by
    have := (List.getElem?_eq_some_iff.1 i2).1
    simp at this
    omega
  have hse : s ≠ e := by
    intro heq
    have hall := i4 heq
    have hall' : ∀ u ∈ verts, u = a := by
      intro u hu
      obtain ⟨i, hi, rfl⟩ := List.mem_iff_getElem.1 hu
      by_cases hin : i < n
      · apply hall
        rw [List.mem_iff_getElem]
        exact ⟨i, by simp; omega, by simp⟩
      · have hil : i = verts.length - 1 := by omega
        subst hil
        have : verts[0]? = verts[verts.length - 1]? := by
          rw [← List.head?_eq_getElem?, ← List.getLast?_eq_getElem?, hhl]
        rw [List.getElem?_eq_getElem (by omega), List.getElem?_eq_getElem (by omega), Option.some.injEq] at this
        rw [← this]
        apply hall
        rw [List.mem_iff_getElem]
        exact ⟨0, by simp; omega, by simp⟩
    obtain ⟨u, hu, v, hv, huv⟩ := hdiff
    exact huv ((hall' u hu).trans (hall' v hv).symm)
  have hfar' : ∀ i j, i < n → j < n → i ≠ j → tol / 2 * (tol / 2) ≤ (verts.getD i V2.zero).distanceSq (verts.getD j V2.zero) :=
    fun i j hi hj hij => by rw [distanceSq_dist2, ← sq]; exact hfar i j hi hj hij
  have hs' : s < verts.length := by omega
  have he' : e < verts.length := by omega
  obtain ⟨x1, a1, b1, c1⟩ := douglas_spec M hM verts n (tol / 2) tol ht (by omega) hfar' depth [verts[s]] s e hsn hen
    (lt_of_lt_of_le (gap_lt n s e hsn) (by omega))
  obtain ⟨x2, a2, b2, c2⟩ := douglas_spec M hM verts n (tol / 2) tol ht (by omega) hfar' depth
    (([verts[s]] ++ x1.map fun i => verts.getD i V2.zero) ++ [verts[e]]) e s hen hsn (lt_of_lt_of_le (gap_lt n e s hen) (by omega))
  refine ⟨s, x1 ++ e :: x2, hsn, ?_, ?_, by simp, ?_⟩
  · unfold simplifyCurves
    simp only [hc, if_true, ← hn, ← hs, ← he, List.getElem?_eq_getElem hs', List.getElem?_eq_getElem he', a1, a2]
    simp [List.getD, hs', he']
  · rw [← inner_loop n s e hsn hen hse]
    exact List.Sublist.append (List.Sublist.cons_cons _ b1) (List.Sublist.cons_cons _ b2)
  · have : s :: (x1 ++ e :: x2) ++ [s] = (s :: x1) ++ e :: (x2 ++ [s]) := by simp
    rw [this, List.isChain_split]
    exact ⟨c1, c2⟩

/-! ## Where it fails -/

/-- With a single vertex kept so far, a near pair that is not adjacent makes the recursion index past the end of the kept vertexes. -/
theorem douglas_crash (M : Mth K) (verts : Line K) (n : Nat) (min tol : K) (fuel : Nat) (v : V2 K) (s e : Nat) (hs : s < n) (he : e < n)
    (hsv : s < verts.length) (hev : e < verts.length) (hg : 2 ≤ gap n s e) (hnear : verts[s].distanceSq verts[e] < min * min) :
    douglasPeucker M verts n min tol fuel [v] s e = none := by
  cases fuel with
  | zero => rfl
  | succ fuel =>
    rw [douglasPeucker, if_neg (by omega), List.getElem?_eq_getElem hsv, List.getElem?_eq_getElem hev]
    simp only
    rw [if_pos hnear]
    have : isShort M [v] n s e min = none := by
      unfold isShort loopFrom
      have hgl := gap_lt n s e hs
      obtain ⟨g, hg'⟩ : ∃ g, gap n s e = g + 1 := ⟨gap n s e - 1, by omega⟩
      rw [hg', List.range_succ_eq_map, List.map_cons, isShortGo, Nat.add_zero, Nat.mod_eq_of_lt hs]
      by_cases h0 : s = 0
      · subst h0
        have : (0 + 1) % n = 1 := Nat.mod_eq_of_lt (by omega)
        rw [this]
        rfl
      · have : ([v] : Line K)[s]? = none := by
          rw [List.getElem?_eq_none_iff]
          simp
          omega
        rw [this]
    rw [this]

/-- **C54 is violated.** `SimplifyCurves` crashes on every open polyline of three or more vertexes whose ends are nearer than half the
tolerance, whatever the depth of the stack. -/
theorem C54_curves_crash (M : Mth K) (tol : K) (verts : Line K) (a b : V2 K) (h : 3 ≤ verts.length) (ha : verts.head? = some a)
    (hb : verts.getLast? = some b) (hab : a ≠ b) (hnear : dist2 a b < (tol / 2) ^ 2) (depth : Nat) :
    simplifyCurves M tol depth verts = none := by
  have ho : isClosed verts = false := by
    unfold isClosed
    rw [ha, hb]
    simp [hab]
  have hs : 0 < verts.length := by omega
  have he : verts.length - 1 < verts.length := by omega
  rw [List.head?_eq_getElem?, List.getElem?_eq_getElem hs, Option.some.injEq] at ha
  rw [List.getLast?_eq_getElem?, List.getElem?_eq_getElem he, Option.some.injEq] at hb
  have hg : gap verts.length 0 (verts.length - 1) = verts.length - 1 := by
    unfold gap
    rw [show verts.length - 1 + verts.length - 0 = (verts.length - 1) + verts.length by omega, Nat.add_mod_right, Nat.mod_eq_of_lt (by omega)]
  unfold simplifyCurves
  simp only [ho, List.getElem?_eq_getElem hs, List.getElem?_eq_getElem he]
  rw [douglas_crash M verts verts.length (tol / 2) tol depth verts[0] 0 (verts.length - 1) hs he hs he (by omega)
    (by rw [distanceSq_dist2, ha, hb, ← sq]; exact hnear)]
  rfl

/-- A horseshoe with its ends a tenth apart, simplified with a tolerance of one. -/
example : (3 ≤ ([⟨0, 0⟩, ⟨5, 5⟩, ⟨1 / 10, 0⟩] : Line ℚ).length) ∧ (⟨0, 0⟩ : V2 ℚ) ≠ ⟨1 / 10, 0⟩ ∧
    dist2 (⟨0, 0⟩ : V2 ℚ) ⟨1 / 10, 0⟩ < ((1 : ℚ) / 2) ^ 2 := by
  refine ⟨by decide, by decide +kernel, ?_⟩
  norm_num [dist2]

theorem scanMax_flat (n : V2 K) (d : K) (verts : Line K) (is : List Nat) (mi : Nat) (h : ∀ i ∈ is, ∃ v, verts[i]? = some v ∧ n.dot v = d) :
    scanMax n d verts is 0 mi = some (0, mi) := by
  induction is with
  | nil => rfl
  | cons i is ih =>
    obtain ⟨v, h1, h2⟩ := h i (by simp)
    rw [scanMax, h1]
    simp only [h2, sub_self, abs_zero, lt_irrefl, if_false, gt_iff_lt]
    exact ih fun j hj => h j (by simp [hj])

/-- **C54 is violated.** With a negative tolerance `SimplifyCurves` never returns from a straight polyline of three or more vertexes: no depth
of recursion is enough. -/
theorem C54_curves_negative (M : Mth K) (tol : K) (ht : tol < 0) (verts : Line K) (a b : V2 K) (h : 3 ≤ verts.length)
    (ha : verts.head? = some a) (hb : verts.getLast? = some b) (hab : a ≠ b) (hfar : (tol / 2) ^ 2 ≤ dist2 a b)
    (hline : ∀ v ∈ verts, (b.sub a).cross (v.sub a) = 0) (depth : Nat) : simplifyCurves M tol depth verts = none := by
  have ho : isClosed verts = false := by
    unfold isClosed
    rw [ha, hb]
    simp [hab]
  have hs : 0 < verts.length := by omega
  have he : verts.length - 1 < verts.length := by omega
  have ha' := ha
  have hb' := hb
  rw [List.head?_eq_getElem?] at ha'
  rw [List.getLast?_eq_getElem?] at hb'
  have hg : gap verts.length 0 (verts.length - 1) = verts.length - 1 := by
    unfold gap
    rw [show verts.length - 1 + verts.length - 0 = (verts.length - 1) + verts.length by omega, Nat.add_mod_right, Nat.mod_eq_of_lt (by omega)]
  have key : ∀ (fuel : Nat) (red : Line K), douglasPeucker M verts verts.length (tol / 2) tol fuel red 0 (verts.length - 1) = none := by
    intro fuel
    induction fuel with
    | zero => intro red; rfl
    | succ fuel ih =>
      intro red
      rw [douglasPeucker, if_neg (by omega), ha', hb', loopFrom_tail]
      simp only
      rw [if_neg (by rw [distanceSq_dist2, ← sq]; exact not_lt.2 hfar)]
      rw [scanMax_flat _ _ _ _ _ (fun i hi => ?_)]
      · simp only
        rw [if_pos ht, ha']
        cases hr : douglasPeucker M verts verts.length (tol / 2) tol fuel red 0 0 with
        | none => rfl
        | some r => simp only [ih]
      · have hi' := inner_lt _ _ _ _ hs hi
        refine ⟨verts[i], List.getElem?_eq_getElem hi', ?_⟩
        have := hline verts[i] (List.getElem_mem _)
        simp only [V2.unit, V2.scale, V2.dot, V2.perp, V2.sub, V2.cross] at *
        linear_combination (1 / V2.mag M (⟨-(b.y - a.y), b.x - a.x⟩ : V2 K)) * this
  unfold simplifyCurves
  simp only [ho, ha', hb', key]
  rfl

example : (3 ≤ ([⟨0, 0⟩, ⟨1, 0⟩, ⟨2, 0⟩] : Line ℚ).length) ∧ (((-1 : ℚ)) / 2) ^ 2 ≤ dist2 (⟨0, 0⟩ : V2 ℚ) ⟨2, 0⟩ ∧
    ∀ v ∈ ([⟨0, 0⟩, ⟨1, 0⟩, ⟨2, 0⟩] : Line ℚ), ((⟨2, 0⟩ : V2 ℚ).sub ⟨0, 0⟩).cross (v.sub ⟨0, 0⟩) = 0 := by
  refine ⟨by decide, by norm_num [dist2], by decide +kernel⟩

/-- **C82 is violated.** The documented bound, that the result is never farther than the tolerance from the polyline, fails where the polyline
turns back: the far vertex lies on the line through the ends, so it is dropped, although it is nine away from everything that is kept. -/
theorem C82_doubling_back : simplifyCurves gridMth (1 / 2) 10 ([⟨0, 0⟩, ⟨10, 0⟩, ⟨1, 0⟩] : Line ℚ) = some [⟨0, 0⟩, ⟨1, 0⟩] ∧
    ∀ t : ℚ, 0 ≤ t → t ≤ 1 → 81 ≤ dist2 (At (⟨0, 0⟩ : V2 ℚ) ⟨1, 0⟩ t) ⟨10, 0⟩ := by
  refine ⟨by decide +kernel, fun t h0 h1 => ?_⟩
  simp only [At, dist2]
  nlinarith

/-- A spike and a flat vertex: the spike is kept and the flat vertex is dropped, in an open and in a closed polyline. -/
example : simplifyCurves gridMth (1 / 2) 10 ([⟨0, 0⟩, ⟨2, 1 / 4⟩, ⟨4, 0⟩, ⟨4, 3⟩, ⟨8, 3⟩] : Line ℚ) = some [⟨0, 0⟩, ⟨4, 0⟩, ⟨4, 3⟩, ⟨8, 3⟩] := by
  decide +kernel

example : simplifyCurves gridMth (1 / 2) 10 ([⟨2, 0⟩, ⟨4, 0⟩, ⟨4, 3⟩, ⟨0, 3⟩, ⟨0, 0⟩, ⟨2, 0⟩] : Line ℚ) =
    some [⟨0, 0⟩, ⟨4, 0⟩, ⟨4, 3⟩, ⟨0, 3⟩, ⟨0, 0⟩] := by
  decide +kernel

/-- The hypotheses of the two theorems above are met by these polylines. -/
example : Spread (1 / 2) ([⟨0, 0⟩, ⟨2, 1 / 4⟩, ⟨4, 0⟩, ⟨4, 3⟩, ⟨8, 3⟩] : Line ℚ) 5 ∧ isClosed ([⟨0, 0⟩, ⟨2, 1 / 4⟩, ⟨4, 0⟩, ⟨4, 3⟩, ⟨8, 3⟩] : Line ℚ) = false ∧
    Spread (1 / 2) ([⟨2, 0⟩, ⟨4, 0⟩, ⟨4, 3⟩, ⟨0, 3⟩, ⟨0, 0⟩, ⟨2, 0⟩] : Line ℚ) 5 ∧
    isClosed ([⟨2, 0⟩, ⟨4, 0⟩, ⟨4, 3⟩, ⟨0, 3⟩, ⟨0, 0⟩, ⟨2, 0⟩] : Line ℚ) = true := by
  refine ⟨fun i j hi hj hij => ?_, by decide +kernel, fun i j hi hj hij => ?_, by decide +kernel⟩ <;>
  · interval_cases i <;> interval_cases j <;> first | exact absurd rfl hij | norm_num [dist2, List.getD]

end Cm
