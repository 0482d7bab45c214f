import Verif.Model.Hull
import Verif.Props.PolylineSimplify
import Mathlib.Data.List.Perm.Basic
/-! # C52, first half: the in-place recursion computes a quickhull -/
set_option linter.unusedSectionVars false
set_option linter.unusedSimpArgs false
set_option linter.unusedVariables false

namespace Cm
open Spec
variable {K : Type} [Field K] [LinearOrder K] [IsStrictOrderedRing K]

namespace Spec
/-- How far `v` is to the right of the line from `a` to `b`, times their distance. -/
def offset (a b v : V2 K) : K := (v.sub a).cross (b.sub a)

/-- What quickhull does between two vertexes `a` and `b` of the hull with the points `l`: nothing if none of them is on the right; otherwise a
farthest one `p` is a vertex, and the others on the right are dealt with between `a` and `p`, and, those not on the right there, between `p` and
`b`. -/
inductive QSide : V2 K → V2 K → List (V2 K) → List (V2 K) → Prop
  | none (a b : V2 K) (l : List (V2 K)) : (∀ v ∈ l, ¬ 0 < offset a b v) → QSide a b l []
  | split (a b : V2 K) (l : List (V2 K)) (p : V2 K) (l1 l2 r1 r2 : List (V2 K)) : p ∈ l → 0 < offset a b p →
      (∀ v ∈ l, offset a b v ≤ offset a b p) → (∀ v ∈ l1, v ∈ l) → (∀ v ∈ l, 0 < offset a b v → v = p ∨ v ∈ l1) →
      (∀ v ∈ l2, v ∈ l1) → (∀ v ∈ l1, ¬ 0 < offset a p v → v ∈ l2) → QSide a p l1 r1 → QSide p b l2 r2 → QSide a b l (r1 ++ p :: r2)
end Spec

/-- What the partition leaves: accepted vertexes, a farthest one first, then the rejected ones. -/
structure Parted (a b : V2 K) (vs good bad : List (V2 K)) : Prop where
  perm : (good ++ bad).Perm vs
  accepted : ∀ v ∈ good, 0 < offset a b v
  rejected : ∀ v ∈ bad, ¬ 0 < offset a b v
  first : ∀ x, good.head? = some x → ∀ v ∈ good, offset a b v ≤ offset a b x

theorem qloop_spec (a b : V2 K) (pre post : List (V2 K)) : ∀ (mid L R : List (V2 K)) (max : K) (pivot : Nat),
    (∀ v ∈ L, 0 < offset a b v ∧ offset a b v ≤ max) → (∀ v ∈ R, ¬ 0 < offset a b v) → (L = [] → max = 0 ∧ pivot = 0) →
    (∀ x, L[pivot]? = some x → offset a b x = max) → (L ≠ [] → pivot < L.length) →
    ∃ L' R' pivot', qloop a (b.sub a) 0 pre.length mid.length L.length (pre ++ (L ++ mid ++ R) ++ post) max pivot =
        some (pre ++ (L' ++ R') ++ post, L'.length, pivot') ∧ (L' ++ R').Perm (L ++ mid ++ R) ∧ (∀ v ∈ L', 0 < offset a b v) ∧
      (∀ v ∈ R', ¬ 0 < offset a b v) ∧ (L' = [] → pivot' = 0) ∧ (L' ≠ [] → pivot' < L'.length) ∧
      (∀ x, L'[pivot']? = some x → ∀ v ∈ L', offset a b v ≤ offset a b x) := by
  intro mid
  induction h : mid.length generalizing mid with
  | zero =>
    intro L R max pivot h1 h2 h3 h4 h5
    rw [List.length_eq_zero_iff] at h
    subst h
    refine ⟨L, R, pivot, by simp [qloop], by simp, fun v hv => (h1 v hv).1, h2, fun e => (h3 e).2, h5, ?_⟩
    intro x hx v hv
    rw [h4 x hx]
    exact (h1 v hv).2
  | succ n ih =>
    intro L R max pivot h1 h2 h3 h4 h5
    obtain ⟨x, mid', rfl⟩ : ∃ x mid', mid = x :: mid' := by
      cases mid with
      | nil => simp at h
      | cons x mid' => exact ⟨x, mid', rfl⟩
    have hn : mid'.length = n := by simpa using h
    -- the last element of the unread part
    obtain ⟨w, hw, hswap⟩ : ∃ w, (pre ++ (L ++ x :: mid' ++ R) ++ post)[pre.length + L.length + n]? = some w ∧
        ∃ mid'', mid''.length = n ∧ (mid'' ++ [x]).Perm (x :: mid') ∧
          ((pre ++ (L ++ x :: mid' ++ R) ++ post).set (pre.length + L.length) w).set (pre.length + L.length + n) x =
            pre ++ (L ++ mid'' ++ x :: R) ++ post := by
      rcases List.eq_nil_or_concat mid' with rfl | ⟨ini, y, rfl⟩
      · simp at hn
        subst hn
        refine ⟨x, by simp, [], rfl, by simp, ?_⟩
        simp
      · rw [List.concat_eq_append] at *
        have hini : ini.length + 1 = n := by simpa using hn
        refine ⟨y, ?_, y :: ini, by simpa using hini, ?_, ?_⟩
        · rw [← hini]
          have : pre ++ (L ++ x :: (ini ++ [y]) ++ R) ++ post = (pre ++ L ++ x :: ini) ++ (y :: (R ++ post)) := by simp
          rw [this, List.getElem?_append_right (by simp; omega)]
          simp
          have : pre.length + L.length + (ini.length + 1) - (pre.length + (L.length + (ini.length + 1))) = 0 := by omega
          rw [this]
          rfl
        · refine List.Perm.trans ?_ (List.Perm.cons x (List.perm_append_comm (l₁ := [y]) (l₂ := ini)))
          simpa using List.perm_append_comm (l₁ := y :: ini) (l₂ := [x])
        · rw [← hini]
          have e1 : pre ++ (L ++ x :: (ini ++ [y]) ++ R) ++ post = (pre ++ L) ++ (x :: (ini ++ [y] ++ R ++ post)) := by simp
          rw [e1, List.set_append_right _ _ (by simp)]
          simp only [List.length_append, Nat.sub_self, List.set_cons_zero]
          have e2 : (pre ++ L) ++ (y :: (ini ++ [y] ++ R ++ post)) = (pre ++ L ++ y :: ini) ++ (y :: (R ++ post)) := by simp
          rw [e2, List.set_append_right _ _ (by simp; omega)]
          have : pre.length + L.length + (ini.length + 1) - (pre ++ L ++ y :: ini).length = 0 := by simp; omega
          rw [this, List.set_cons_zero]
          simp
    have hx : (pre ++ (L ++ x :: mid' ++ R) ++ post)[pre.length + L.length]? = some x := by
      have e1 : pre ++ (L ++ x :: mid' ++ R) ++ post = (pre ++ L) ++ (x :: (mid' ++ R ++ post)) := by simp
      rw [e1, List.getElem?_append_right (by simp)]
      simp
    rw [qloop, hx, hw]
    simp only
    have hval : (x.sub a).cross (b.sub a) = offset a b x := rfl
    rw [hval]
    split
    · rename_i hpos
      have hpos : 0 < offset a b x := hpos
      have eqm : pre ++ (L ++ x :: mid' ++ R) ++ post = pre ++ ((L ++ [x]) ++ mid' ++ R) ++ post := by simp
      have eql : L.length + 1 = (L ++ [x]).length := by simp
      split
      · rename_i hgt
        rw [eqm, eql]
        have := ih mid' hn (L ++ [x]) R (offset a b x) L.length ?_ h2 (by simp) ?_ (by simp)
        · obtain ⟨L', R', p', g1, g2, g3⟩ := this
          exact ⟨L', R', p', g1, g2.trans (by simp), g3⟩
        · intro v hv
          rcases List.mem_append.1 hv with hv | hv
          · exact ⟨(h1 v hv).1, (h1 v hv).2.trans hgt.le⟩
          · rw [List.mem_singleton] at hv
            subst hv
            exact ⟨hpos, le_refl _⟩
        · intro y hy
          simp at hy
          rw [hy]
      · rename_i hle
        have hL : L ≠ [] := by
          intro e
          obtain ⟨e1, e2⟩ := h3 e
          rw [e1] at hle
          exact hle hpos
        rw [eqm, eql]
        have := ih mid' hn (L ++ [x]) R max pivot ?_ h2 (by simp) ?_ ?_
        · obtain ⟨L', R', p', g1, g2, g3⟩ := this
          exact ⟨L', R', p', g1, g2.trans (by simp), g3⟩
        · intro v hv
          rcases List.mem_append.1 hv with hv | hv
          · exact h1 v hv
          · rw [List.mem_singleton] at hv
            subst hv
            exact ⟨hpos, not_lt.1 hle⟩
        · intro y hy
          rw [List.getElem?_append_left (h5 hL)] at hy
          exact h4 y hy
        · intro _
          have := h5 hL
          simp
          omega
    · rename_i hneg
      have hneg : ¬ 0 < offset a b x := hneg
      obtain ⟨mid'', hlen, hperm, hset⟩ := hswap
      rw [hset]
      have := ih mid'' hlen L (x :: R) max pivot h1 ?_ h3 h4 h5
      · obtain ⟨L', R', p', g1, g2, g3⟩ := this
        refine ⟨L', R', p', g1, g2.trans ?_, g3⟩
        have : L ++ mid'' ++ x :: R = L ++ (mid'' ++ [x]) ++ R := by simp
        rw [this]
        exact List.Perm.append_right R (List.Perm.append_left L hperm)
      · intro v hv
        rcases List.mem_cons.1 hv with rfl | hv
        · exact hneg
        · exact h2 v hv

theorem qpartition_spec (M : Mth K) (a b : V2 K) (pre vs post : List (V2 K)) :
    ∃ good bad, qpartition M 0 (pre ++ vs ++ post) pre.length vs.length a b = some (pre ++ (good ++ bad) ++ post, good.length) ∧
      Parted a b vs good bad := by
  unfold qpartition
  split
  · rename_i h
    rw [List.length_eq_zero_iff] at h
    subst h
    exact ⟨[], [], by simp, ⟨by simp, by simp, by simp, by simp⟩⟩
  · rw [zero_mul]
    obtain ⟨L, R, p, g1, g2, g3, g4, g5, g6, g7⟩ := qloop_spec a b pre post vs [] [] 0 0 (by simp) (by simp) (by simp) (by simp) (by simp)
    simp only [List.nil_append, List.append_nil, List.length_nil] at g1 g2
    rw [g1]
    simp only
    split
    · rename_i hp
      have hL : L ≠ [] := fun e => hp (g5 e)
      have hlt := g6 hL
      have hx : (pre ++ (L ++ R) ++ post)[pre.length]? = some (L[0]'(by omega)) := by
        rw [List.append_assoc, List.getElem?_append_right (le_refl _), Nat.sub_self, List.append_assoc, List.getElem?_append_left (by omega),
          List.getElem?_eq_getElem (by omega)]
      have hy : (pre ++ (L ++ R) ++ post)[pre.length + p]? = some L[p] := by
        rw [List.append_assoc, List.getElem?_append_right (by omega), Nat.add_sub_cancel_left, List.append_assoc, List.getElem?_append_left hlt,
          List.getElem?_eq_getElem hlt]
      rw [hx, hy]
      simp only
      have hset : ((pre ++ (L ++ R) ++ post).set pre.length L[p]).set (pre.length + p) (L[0]'(by omega)) =
          pre ++ ((L.set 0 L[p]).set p (L[0]'(by omega)) ++ R) ++ post := by
        have s1 : (pre ++ (L ++ R) ++ post).set pre.length L[p] = pre ++ (L.set 0 L[p] ++ (R ++ post)) := by
          rw [List.append_assoc, List.set_append_right _ _ (le_refl _), Nat.sub_self, List.append_assoc, List.set_append_left _ _ (by omega)]
        rw [s1, List.set_append_right _ _ (by omega), Nat.add_sub_cancel_left, List.set_append_left _ _ (by simpa using hlt)]
        simp
      rw [hset]
      have hperm : ((L.set 0 L[p]).set p (L[0]'(by omega))).Perm L := by
        have := List.set_set_perm (as := L) (i := 0) (j := p) (by omega) hlt
        exact this
      have hlen : ((L.set 0 L[p]).set p (L[0]'(by omega))).length = L.length := by simp
      refine ⟨(L.set 0 L[p]).set p (L[0]'(by omega)), R, by rw [hlen], ⟨?_, ?_, g4, ?_⟩⟩
      · exact (List.Perm.append_right R hperm).trans g2
      · intro v hv
        exact g3 v (hperm.mem_iff.1 hv)
      · intro x hx v hv
        have : ((L.set 0 L[p]).set p (L[0]'(by omega))).head? = some L[p] := by
          rw [List.head?_eq_getElem?, List.getElem?_set_ne hp, List.getElem?_set_self (by omega)]
        rw [this, Option.some.injEq] at hx
        subst hx
        exact g7 _ (List.getElem?_eq_getElem hlt) v (hperm.mem_iff.1 hv)
    · rename_i hp
      rw [not_not] at hp
      subst hp
      refine ⟨L, R, rfl, ⟨g2, g3, g4, ?_⟩⟩
      intro x hx v hv
      rw [List.head?_eq_getElem?] at hx
      exact g7 x hx v hv

/-- What one side of the recursion returns, from the partition on. -/
theorem qside_of_parted {a b : V2 K} {vs good bad : List (V2 K)} (h : Parted a b vs good bad) (hg : good = []) : QSide a b vs [] := by
  refine .none a b vs fun v hv => ?_
  have := h.perm.mem_iff.2 hv
  rw [hg, List.nil_append] at this
  exact h.rejected v this

theorem qside_split {a b p : V2 K} {vs good bad : List (V2 K)} (h : Parted a b vs (p :: good) bad) {good1 bad1 r1 r2 : List (V2 K)}
    (h1 : Parted a p good good1 bad1) (q1 : QSide a p good r1) (q2 : QSide p b bad1 r2) : QSide a b vs (r1 ++ p :: r2) := by
  refine .split a b vs p good bad1 r1 r2 (h.perm.mem_iff.1 (by simp)) (h.accepted p (by simp)) ?_ ?_ ?_ ?_ ?_ q1 q2
  · intro v hv
    rcases List.mem_append.1 (h.perm.mem_iff.2 hv) with hv | hv
    · exact h.first p rfl v hv
    · exact (not_lt.1 (h.rejected v hv)).trans (h.accepted p (by simp)).le
  · intro v hv
    exact h.perm.mem_iff.1 (by simp [hv])
  · intro v hv hpos
    rcases List.mem_append.1 (h.perm.mem_iff.2 hv) with hv | hv
    · rcases List.mem_cons.1 hv with rfl | hv
      · exact Or.inl rfl
      · exact Or.inr hv
    · exact absurd hpos (h.rejected v hv)
  · intro v hv
    exact h1.perm.mem_iff.1 (by simp [hv])
  · intro v hv hneg
    rcases List.mem_append.1 (h1.perm.mem_iff.2 hv) with hv | hv
    · exact absurd (h1.accepted v hv) hneg
    · exact hv

/-- The recursion, on an array `pre ++ vs ++ post` with the vertexes `vs` and the result starting before them: it does not index out of range,
returns the vertexes found between `a` and `pivot`, `pivot`, and those found between `pivot` and `b`, and changes nothing before the result and
nothing behind the vertexes. -/
theorem qreduce_spec (M : Mth K) : ∀ (fuel : Nat) (m vs : List (V2 K)) (base : Nat) (a p b : V2 K) (r : Nat), vs.length < fuel → r < base →
    base + vs.length ≤ m.length → (m.drop base).take vs.length = vs → base ≤ m.length →
    ∃ (m' r1 r2 good bad : List (V2 K)), qreduce M 0 fuel m base vs.length a p b r = some (m', (r1 ++ p :: r2).length) ∧
      Parted a p vs good bad ∧ QSide a p vs r1 ∧ QSide p b bad r2 ∧ m'.length = m.length ∧ m'.take r = m.take r ∧
      (m'.drop r).take (r1 ++ p :: r2).length = r1 ++ p :: r2 ∧ m'.drop (base + vs.length) = m.drop (base + vs.length) ∧
      r1.length ≤ good.length ∧ r2.length ≤ bad.length := by
  intro fuel
  induction fuel with
  | zero => intro m vs base a p b r h; omega
  | succ fuel ih =>
    intro m vs base a p b r hf hr hlen hvs hb
    rw [qreduce]
    split
    · rename_i h0
      rw [List.length_eq_zero_iff] at h0
      subst h0
      have hrm : r < m.length := by omega
      rw [if_pos hrm]
      refine ⟨m.set r p, [], [], [], [], rfl, ⟨by simp, by simp, by simp, by simp⟩, .none _ _ _ (by simp), .none _ _ _ (by simp), by simp, ?_, ?_, ?_,
        by simp, by simp⟩
      · rw [List.take_set_of_le (le_refl _)]
      · rw [List.drop_set, if_neg (lt_irrefl _), Nat.sub_self]
        cases hd : m.drop r with
        | nil =>
          have := congrArg List.length hd
          simp at this
          omega
        | cons x l => simp
      · rw [List.drop_set, if_pos (by simpa using hr)]
    · rename_i h0
      -- the array in three parts
      have hm : m = m.take base ++ vs ++ m.drop (base + vs.length) := by
        conv_lhs => rw [← List.take_append_drop base m, ← List.take_append_drop vs.length (m.drop base), hvs, List.drop_drop]
        simp
      have htl : (m.take base).length = base := by simp; omega
      obtain ⟨good, bad, e1, hp1⟩ := qpartition_spec M a p (m.take base) vs (m.drop (base + vs.length))
      rw [← hm, htl] at e1
      rw [e1]
      simp only
      have hgb : good.length + bad.length = vs.length := by
        have := hp1.perm.length_eq
        simpa using this
      set m1 := m.take base ++ (good ++ bad) ++ m.drop (base + vs.length) with hm1
      have hm1l : m1.length = m.length := by
        rw [hm1]
        simp
        omega
      have hm1take : ∀ k ≤ base, m1.take k = m.take k := by
        intro k hk
        rw [hm1, List.append_assoc, List.take_append_of_le_length (by rw [htl]; exact hk), List.take_take, min_eq_left hk]
      have hm1drop : m1.drop base = good ++ (bad ++ m.drop (base + vs.length)) := by
        rw [hm1, List.append_assoc, List.drop_left' htl, List.append_assoc]
      have hm1drop2 : m1.drop (base + good.length) = bad ++ m.drop (base + vs.length) := by
        rw [← List.drop_drop, hm1drop, List.drop_left' rfl]
      have hm1drop3 : m1.drop (base + vs.length) = m.drop (base + vs.length) := by
        rw [show base + vs.length = base + good.length + bad.length by omega, ← List.drop_drop, hm1drop2, List.drop_left' rfl]
        congr 1
        omega
      -- the left side
      obtain ⟨m2, r1, e2, q1, l2, t2, w2, d2, k2⟩ : ∃ m2 r1, qleft m1 base good.length
            (fun x => qreduce M 0 fuel m1 (base + 1) (good.length - 1) a x p r) = some (m2, r1.length) ∧ QSide a p vs r1 ∧ m2.length = m.length ∧ m2.take r = m.take r ∧
          (m2.drop r).take r1.length = r1 ∧ m2.drop (base + good.length) = m1.drop (base + good.length) ∧ r1.length ≤ good.length := by
        cases hgd : good with
        | nil => exact ⟨m1, [], by simp [qleft], qside_of_parted hp1 hgd, hm1l, hm1take r hr.le, by simp, rfl, by simp⟩
        | cons x good' =>
          rw [qleft, if_neg (by simp)]
          have hx : m1[base]? = some x := by
            have := congrArg List.head? hm1drop
            rw [List.head?_drop, hgd] at this
            simpa using this
          rw [hx]
          simp only [List.length_cons, Nat.add_sub_cancel]
          have hd1 : m1.drop (base + 1) = good' ++ (bad ++ m.drop (base + vs.length)) := by
            rw [← List.drop_drop, hm1drop, hgd]
            rfl
          rw [hgd, List.length_cons] at hgb
          obtain ⟨m2, s1, s2, g1, b1, f1, f2, f3, f4, f5, f6, f7, f8, f9, f10⟩ := ih m1 good' (base + 1) a x p r (by omega) (by omega) (by omega)
            (by rw [hd1]; simp) (by omega)
          refine ⟨m2, s1 ++ x :: s2, f1, qside_split (hgd ▸ hp1) f2 f3 f4, f5.trans hm1l, f6.trans (hm1take r hr.le), f7, ?_, ?_⟩
          · rw [show base + (good'.length + 1) = base + 1 + good'.length by omega]
            exact f8
          · have := f2.perm.length_eq
            simp at this ⊢
            omega
      rw [e2]
      simp only
      have hidx : r + r1.length < m2.length := by omega
      rw [if_pos hidx]
      set m3 := m2.set (r + r1.length) p with hm3
      have hm3l : m3.length = m.length := by rw [hm3]; simpa using l2
      have hm3drop : m3.drop (base + good.length) = bad ++ m.drop (base + vs.length) := by
        rw [hm3, List.drop_set, if_pos (by omega), d2, hm1drop2]
      have hm3r : (m3.drop r).take (r1.length + 1) = r1 ++ [p] := by
        rw [hm3, List.drop_set, if_neg (by omega), Nat.add_sub_cancel_left]
        have hdl : r1.length < (m2.drop r).length := by simp; omega
        rw [List.take_succ, List.getElem?_set_self hdl, List.take_set_of_le (le_refl _), w2]
        rfl
      have hm3t : m3.take r = m.take r := by
        rw [hm3, List.take_set_of_le (by omega), t2]
      have hm3' : m3 = m3.take (base + good.length) ++ bad ++ m.drop (base + vs.length) := by
        conv_lhs => rw [← List.take_append_drop (base + good.length) m3, hm3drop]
        simp
      have htl3 : (m3.take (base + good.length)).length = base + good.length := by simp; omega
      obtain ⟨good2, bad2, e3, hp2⟩ := qpartition_spec M p b (m3.take (base + good.length)) bad (m.drop (base + vs.length))
      rw [← hm3', htl3, show bad.length = vs.length - good.length by omega] at e3
      rw [e3]
      simp only
      set m4 := m3.take (base + good.length) ++ (good2 ++ bad2) ++ m.drop (base + vs.length) with hm4
      have hgb2 : good2.length + bad2.length = bad.length := by
        have := hp2.perm.length_eq
        simpa using this
      have hm4l : m4.length = m.length := by
        rw [hm4]
        simp
        omega
      have hm4take : ∀ k ≤ base + good.length, m4.take k = m3.take k := by
        intro k hk
        rw [hm4, List.append_assoc, List.take_append_of_le_length (by rw [htl3]; exact hk), List.take_take, min_eq_left hk]
      have hm4drop : m4.drop (base + good.length) = good2 ++ (bad2 ++ m.drop (base + vs.length)) := by
        rw [hm4, List.append_assoc, List.drop_left' htl3, List.append_assoc]
      have hm4drop3 : m4.drop (base + vs.length) = m.drop (base + vs.length) := by
        rw [← hgb, ← hgb2, show base + (good.length + (good2.length + bad2.length)) = (base + good.length) + (good2.length + bad2.length) by omega,
          ← List.drop_drop, hm4drop, ← List.append_assoc, List.drop_left' (by simp)]
        rw [show base + good.length + (good2.length + bad2.length) = base + vs.length by omega]
      have hm4r : (m4.drop r).take (r1.length + 1) = r1 ++ [p] := by
        have : (m4.drop r).take (r1.length + 1) = (m4.take (r + (r1.length + 1))).drop r := by
          rw [List.drop_take, Nat.add_sub_cancel_left]
        rw [this, hm4take _ (by omega), List.drop_take, Nat.add_sub_cancel_left, hm3r]
      cases hgd : good2 with
      | nil =>
        rw [if_pos (by simp)]
        refine ⟨m4, r1, [], good, bad, by simp, hp1, q1, qside_of_parted hp2 hgd, hm4l, ?_, ?_, hm4drop3, k2, by simp⟩
        · rw [hm4take r (by omega), hm3t]
        · simpa using hm4r
      | cons x good2' =>
        rw [if_neg (by simp)]
        have hx : m4[base + good.length]? = some x := by
          have := congrArg List.head? hm4drop
          rw [List.head?_drop, hgd] at this
          simpa using this
        rw [hx]
        simp only [List.length_cons, Nat.add_sub_cancel]
        have hd1 : m4.drop (base + good.length + 1) = good2' ++ (bad2 ++ m.drop (base + vs.length)) := by
          rw [← List.drop_drop, hm4drop, hgd]
          rfl
        rw [hgd, List.length_cons] at hgb2
        obtain ⟨m5, s1, s2, g1, b1, f1, f2, f3, f4, f5, f6, f7, f8, f9, f10⟩ := ih m4 good2' (base + good.length + 1) p x b (r + r1.length + 1)
          (by omega) (by omega) (by omega) (by rw [hd1]; simp) (by omega)
        rw [f1]
        simp only
        have hg1 := f2.perm.length_eq
        rw [List.length_append] at hg1
        refine ⟨m5, r1, s1 ++ x :: s2, good, bad, ?_, hp1, q1, qside_split (hgd ▸ hp2) f2 f3 f4, f5.trans hm4l, ?_, ?_, ?_, k2, ?_⟩
        · congr 2
          simp
          omega
        · have := congrArg (List.take r) f6
          rw [List.take_take, List.take_take, min_eq_left (by omega)] at this
          rw [this, hm4take r (by omega), hm3t]
        · have e5 : (m5.drop r).take (r1.length + 1) = r1 ++ [p] := by
            have : (m5.drop r).take (r1.length + 1) = (m5.take (r + r1.length + 1)).drop r := by
              rw [List.drop_take, show r + r1.length + 1 - r = r1.length + 1 by omega]
            rw [this, f6, List.drop_take, show r + r1.length + 1 - r = r1.length + 1 by omega, hm4r]
          have hl : (r1 ++ p :: (s1 ++ x :: s2)).length = (r1.length + 1) + (s1 ++ x :: s2).length := by
            simp
            omega
          rw [hl, List.take_add, e5, List.drop_drop, show r + (r1.length + 1) = r + r1.length + 1 by omega, f7]
          simp
        · have := congrArg (List.drop (base + vs.length - (base + good.length + 1 + good2'.length))) f8
          rw [List.drop_drop, List.drop_drop, show base + good.length + 1 + good2'.length + (base + vs.length - (base + good.length + 1 + good2'.length)) =
            base + vs.length by omega] at this
          rw [this, hm4drop3]
        · simp at *
          omega

theorem swapAt_spec (m : List (V2 K)) {i j : Nat} {x y : V2 K} (hi : m[i]? = some x) (hj : m[j]? = some y) :
    ∃ m', swapAt m i j = some m' ∧ m'.Perm m ∧ m'[i]? = some y ∧ m'[j]? = some x ∧ ∀ k, k ≠ i → k ≠ j → m'[k]? = m[k]? := by
  obtain ⟨hi', ei⟩ := List.getElem?_eq_some_iff.1 hi
  obtain ⟨hj', ej⟩ := List.getElem?_eq_some_iff.1 hj
  refine ⟨(m.set i y).set j x, by simp [swapAt, hi, hj], ?_, ?_, ?_, ?_⟩
  · have := List.set_set_perm (as := m) hi' hj'
    rwa [ei, ej] at this
  · by_cases h : i = j
    · subst h
      rw [List.getElem?_set_self (by simpa using hi'), ← ei, ej]
    · rw [List.getElem?_set_ne (fun e => h e.symm), List.getElem?_set_self hi']
  · rw [List.getElem?_set_self (by simpa using hj')]
  · intro k h1 h2
    rw [List.getElem?_set_ne (fun e => h2 e.symm), List.getElem?_set_ne (fun e => h1 e.symm)]

theorem loopIndexes_same (m : List (V2 K)) (a : V2 K) (h : ∀ v ∈ m, v = a) : loopIndexes m = (0, 0) := by
  cases m with
  | nil => rfl
  | cons x l =>
    have hx := h x (by simp)
    subst hx
    have key : ∀ (l : List (V2 K)) (i : Nat), (∀ v ∈ l, v = x) → loopGo l i (0, 0, x, x) = (0, 0, x, x) := by
      intro l
      induction l with
      | nil => intros; rfl
      | cons y l ih =>
        intro i hl
        rw [loopGo, hl y (by simp)]
        have : loopStep (0, 0, x, x) i x = (0, 0, x, x) := by simp [loopStep]
        rw [this]
        exact ih _ fun v hv => hl v (by simp [hv])
    simp [loopIndexes, key l 1 fun v hv => h v (by simp [hv])]

/-- What `convexHull` returns: the one vertex if all are the same, else the lexicographically least vertex, the result of quickhull on its side
to the greatest one, that one, and the result of quickhull on the way back. -/
theorem convexHull_spec (M : Mth K) (m : List (V2 K)) (h : m ≠ []) : ∃ hull, hullVerts M m = some hull ∧
    ((∃ a, hull = [a] ∧ a ∈ m ∧ ∀ v ∈ m, v = a) ∨
      ∃ a b vs good bad r1 r2, hull = a :: (r1 ++ b :: r2) ∧ (a :: b :: vs).Perm m ∧ LexLt a b ∧ (∀ v ∈ m, ¬ LexLt v a ∧ ¬ LexLt b v) ∧
        Parted a b vs good bad ∧ QSide a b vs r1 ∧ QSide b a bad r2) := by
  obtain ⟨a, b, ha, hb, hab, hse⟩ := loopIndexes_spec m h
  have hlen : m.length ≠ 0 := by simpa using h
  by_cases he : (loopIndexes m).1 = (loopIndexes m).2
  · have hall := hse he
    have hc : convexHull M 0 m = some (m, 1) := by simp [convexHull, hlen, he]
    refine ⟨m.take 1, by simp [hullVerts, hc], Or.inl ⟨a, ?_, List.mem_of_getElem? ha, hall⟩⟩
    cases m with
    | nil => simp at h
    | cons x m => simp [hall x (by simp)]
  · have hlt : LexLt a b := by
      by_contra hn
      have hba : ¬ LexLt b a := (hab b (List.mem_of_getElem? hb)).1
      have heq := lex_tri hn hba
      apply he
      rw [loopIndexes_same m a fun v hv => by
        have := hab v hv
        rw [← heq] at this
        exact lex_tri this.1 this.2]
    generalize hs : (loopIndexes m).1 = s at *
    generalize hee : (loopIndexes m).2 = e at *
    have hsl := (List.getElem?_eq_some_iff.1 ha).1
    have hel := (List.getElem?_eq_some_iff.1 hb).1
    obtain ⟨x0, hx0⟩ : ∃ x0, m[0]? = some x0 := ⟨m[0], by simp⟩
    obtain ⟨m1, e1, p1, f1, f2, f3⟩ := swapAt_spec m hx0 ha
    have hm1l := p1.length_eq
    set e' := if e = 0 then s else e with he'
    have he'b : m1[e']? = some b := by
      rw [he']
      split
      · rename_i h0
        subst h0
        rw [f2, ← hx0, hb]
      · rename_i h0
        rw [f3 e h0 (fun q => he q.symm), hb]
    have he'0 : e' ≠ 0 := by
      rw [he']
      split
      · omega
      · assumption
    obtain ⟨x1, hx1⟩ : ∃ x1, m1[1]? = some x1 := ⟨m1[1]'(by omega), by simp⟩
    obtain ⟨m2, e2, p2, g1, g2, g3⟩ := swapAt_spec m1 hx1 he'b
    have hm2l := p2.length_eq
    have g0 : m2[0]? = some a := by rw [g3 0 (by omega) (fun q => he'0 q.symm), f1]
    obtain ⟨vs, hvs⟩ : ∃ vs, m2 = a :: b :: vs := by
      match m2, g0, g1 with
      | x :: y :: vs, g0, g1 =>
        simp at g0 g1
        exact ⟨vs, by rw [g0, g1]⟩
    have hvl : m2.length - 2 = vs.length := by rw [hvs]; simp
    obtain ⟨m3, r1, r2, good, bad, k1, k2, k3, k4, k5, k6, k7, k8, k9, k10⟩ := qreduce_spec M m2.length m2 vs 2 a b a 1
      (by rw [hvs]; simp) (by omega) (by rw [hvs]; simp; omega) (by rw [hvs]; simp) (by rw [hvs]; simp)
    have hc : convexHull M 0 m = some (m3, (r1 ++ b :: r2).length + 1) := by
      unfold convexHull
      simp only [if_neg hlen, hs, hee, if_neg he, e1]
      rw [← he', e2]
      simp only [g0, g1, hvl, k1]
    refine ⟨m3.take ((r1 ++ b :: r2).length + 1), by simp [hullVerts, hc], Or.inr ⟨a, b, vs, good, bad, r1, r2, ?_, ?_, hlt, hab, k2, k3, k4⟩⟩
    · rw [Nat.add_comm, List.take_add, k6, k7, hvs]
      rfl
    · rw [← hvs]
      exact p2.trans p1

end Cm
