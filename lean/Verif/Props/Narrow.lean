import Verif.Spec.Rounded
import Verif.Model.Narrow
import Verif.Props.BBTree
import Verif.Props.JointLists
/-! # C89: which pairs reach the narrow phase -/
set_option linter.unusedSectionVars false
set_option linter.unusedSimpArgs false
set_option linter.unusedVariables false

namespace Cm
open Spec BBTree Threads
variable {K : Type} [Zero K] [One K] [Add K] [Sub K] [Mul K] [Div K] [Neg K] [NatCast K] [LinearOrder K] [Spec.Rounded K]

namespace Spec
/-- Two filters let their shapes collide: not the same group, and each has a category the other's mask includes. -/
def Accepts (f g : ShapeFilter) : Prop :=
  (f.group = 0#64 ∨ f.group ≠ g.group) ∧
  (∃ i < 64, f.categories.getLsbD i = true ∧ g.mask.getLsbD i = true) ∧ (∃ i < 64, g.categories.getLsbD i = true ∧ f.mask.getLsbD i = true)

/-- Two shapes are to be tested against each other. `joints` are the joints of the space with their bodies. -/
def ToTest (body : Nat → Nat) (flt : Nat → ShapeFilter) (bb : Nat → BB K) (joints : List (Nat × Nat × Nat)) (collide : Nat → Bool) (i j : Nat) : Prop :=
  body i ≠ body j ∧ Accepts (flt i) (flt j) ∧ Overlap (bb i) (bb j) ∧
  ∀ n, collide n = false → (n, body i, body j) ∉ joints ∧ (n, body j, body i) ∉ joints
end Spec

theorem toTest_symm {body : Nat → Nat} {flt : Nat → ShapeFilter} {bb : Nat → BB K} {joints : List (Nat × Nat × Nat)} {collide : Nat → Bool} {i j : Nat}
    (h : ToTest body flt bb joints collide i j) : ToTest body flt bb joints collide j i := by
  obtain ⟨h1, ⟨g1, g2, g3⟩, ⟨p, h3, h3'⟩, h4⟩ := h
  refine ⟨h1.symm, ⟨?_, g3, g2⟩, ⟨p, h3', h3⟩, fun n hn => (h4 n hn).symm⟩
  by_cases h : (flt j).group = 0#64
  · exact .inl h
  · refine .inr fun e => ?_
    rcases g1 with g | g
    · exact h (e.trans g)
    · exact g e.symm

/-- **C89** The early tests let exactly the pairs through that are to be tested. -/
theorem C89_reject (body : Nat → Nat) (flt : Nat → ShapeFilter) (bb : Nat → BB K) (hbb : ∀ i, Proper (bb i)) (joints : List (Nat × Nat × Nat))
    (collide : Nat → Bool) (barred : Nat → Nat → Bool)
    (hbar : ∀ x y, barred x y = true ↔ ∃ n, collide n = false ∧ ((n, x, y) ∈ joints ∨ (n, y, x) ∈ joints)) (i j : Nat) :
    queryReject body flt bb barred i j = false ↔ ToTest body flt bb joints collide i j := by
  have hf := C05_accept_iff (flt i) (flt j)
  have ho : (bb i).intersects (bb j) = true ↔ Overlap (bb i) (bb j) := ⟨intersects_overlap (hbb i) (hbb j), overlap_intersects⟩
  unfold queryReject ToTest
  by_cases h1 : body i = body j
  · simp [h1]
  · rw [if_neg h1]
    by_cases h2 : (flt i).reject (flt j) = true
    · rw [if_pos h2]
      have : ¬ Accepts (flt i) (flt j) := fun h => by rw [hf.2 h] at h2; cases h2
      simp [this]
    · rw [if_neg h2]
      have h2' := hf.1 (by simpa using h2)
      by_cases h3 : (bb i).intersects (bb j) = true
      · rw [if_neg (by simp [h3])]
        by_cases h4 : barred (body i) (body j) = true
        · rw [if_pos h4]
          obtain ⟨n, hn, hm⟩ := (hbar _ _).1 h4
          simp only [Bool.true_eq_false, false_iff, not_and]
          intro _ _ _ h
          exact hm.elim (h n hn).1 (h n hn).2
        · rw [if_neg h4]
          refine ⟨fun _ => ⟨h1, h2', ho.1 h3, fun n hn => ?_⟩, fun _ => rfl⟩
          have := mt (hbar _ _).2 h4
          exact ⟨fun h => this ⟨n, hn, .inl h⟩, fun h => this ⟨n, hn, .inr h⟩⟩
      · rw [if_pos (by simp [h3])]
        have : ¬ Overlap (bb i) (bb j) := fun h => h3 (ho.2 h)
        simp [this]

theorem narrow_count (body : Nat → Nat) (flt : Nat → ShapeFilter) (bb : Nat → BB K) (barred : Nat → Nat → Bool) (l : List (Nat × Nat)) (p : Nat × Nat) :
    (narrowPairs body flt bb barred l).count p = if queryReject body flt bb barred p.1 p.2 then 0 else l.count p := by
  unfold narrowPairs
  split
  · rename_i h
    rw [List.count_eq_zero]
    intro hm
    have := (List.mem_filter.1 hm).2
    simp [h] at this
  · rename_i h
    exact List.count_filter (by simpa using h)

/-- **C89** After any history of the broad phase and of the joints, a step tests exactly the pairs of different shapes, not both static, that are
on different bodies, with filters that accept each other, overlapping boxes, and no joint between the bodies that bars them from
colliding; each of them once. -/
theorem C89_narrow (ops : List (Op K)) (m : Index K) (hops : LegalRun emptyIndex ops) (hm : indexRun emptyIndex ops = some m) (order : List Nat)
    (bbf : Nat → BB K) (vel : Nat → V2 K) (hq : Legal m (.reindexQuery order bbf vel)) (hstat : ∀ j b, m j = some (false, b) → bbf j = b)
    (body : Nat → Nat) (flt : Nat → ShapeFilter)
    (eA eB : Nat → Nat) (jops : List (LinkOp Nat Nat)) (hh : LinkHistory [] jops) (hr : RemovesPresent [] jops)
    (fuel : Nat) (hf : jops.length ≤ fuel) (collide : Nat → Bool) :
    ∃ s h, run init ops = some s ∧ jointRun fuel (emptyHeap eA eB) jops = some h ∧
      ∀ barred : Nat → Nat → Bool, (∀ a b, ∃ visited, h.walk a fuel (h.head a) = some visited ∧ barred a b = h.rejects collide a b visited) →
      let tested := narrowPairs body flt bbf barred (reindexQuery s order bbf vel).2
      (∀ i j, tested.count (i, j) + tested.count (j, i) ≤ 1) ∧
      (∀ i j, (i, j) ∈ tested ∨ (j, i) ∈ tested ↔
        i ≠ j ∧ (m i).isSome ∧ (m j).isSome ∧ ((∃ b, m i = some (true, b)) ∨ ∃ b, m j = some (true, b)) ∧
          ToTest body flt bbf (links jops) collide i j) := by
  obtain ⟨s, hs, h6, h6'⟩ := C06_finds_every_pair ops m hops hm order bbf vel hq
  obtain ⟨s', hs', h7, h7'⟩ := C07_no_pair_twice ops m hops hm order bbf vel hq
  obtain rfl : s = s' := Option.some.inj (hs.symm.trans hs')
  obtain ⟨h, hj, hrej⟩ := C30_rejects eA eB jops hh hr fuel hf collide
  refine ⟨s, h, hs, hj, ?_⟩
  intro barred hb tested
  have hbar : ∀ x y, barred x y = true ↔ ∃ n, collide n = false ∧ ((n, x, y) ∈ links jops ∨ (n, y, x) ∈ links jops) := by
    intro x y
    obtain ⟨v, hv, e⟩ := hb x y
    rw [e]; exact hrej x y v hv
  have key := C89_reject body flt bbf (fun i => hq.1 i) (links jops) collide barred hbar
  have mem : ∀ i j, (i, j) ∈ tested ↔ (i, j) ∈ (reindexQuery s order bbf vel).2 ∧ ToTest body flt bbf (links jops) collide i j := by
    intro i j
    rw [← key i j]
    show (i, j) ∈ narrowPairs _ _ _ _ _ ↔ _
    unfold narrowPairs
    rw [List.mem_filter]; simp
  refine ⟨?_, ?_⟩
  · intro i j
    have := h7 i j
    have l1 : tested.count (i, j) ≤ (reindexQuery s order bbf vel).2.count (i, j) := by
      show (narrowPairs _ _ _ _ _).count _ ≤ _
      rw [narrow_count]; split <;> omega
    have l2 : tested.count (j, i) ≤ (reindexQuery s order bbf vel).2.count (j, i) := by
      show (narrowPairs _ _ _ _ _).count _ ≤ _
      rw [narrow_count]; split <;> omega
    omega
  · intro i j
    constructor
    · rintro (ht | ht)
      · obtain ⟨h1, h2⟩ := (mem i j).1 ht
        obtain ⟨a1, a2, a3, a4⟩ := h7' i j h1
        exact ⟨a1, a2, a3, a4, h2⟩
      · obtain ⟨h1, h2⟩ := (mem j i).1 ht
        obtain ⟨a1, a2, a3, a4⟩ := h7' j i h1
        exact ⟨a1.symm, a3, a2, a4.symm, toTest_symm h2⟩
    · rintro ⟨hne, hi, hj', hdyn, ht⟩
      have rep : (i, j) ∈ (reindexQuery s order bbf vel).2 ∨ (j, i) ∈ (reindexQuery s order bbf vel).2 := by
        have hc : (reindexQuery s order bbf vel).2.count (i, j) + (reindexQuery s order bbf vel).2.count (j, i) = 1 := by
          obtain ⟨⟨ki, bi⟩, hi⟩ := Option.isSome_iff_exists.1 hi
          obtain ⟨⟨kj, bj⟩, hj'⟩ := Option.isSome_iff_exists.1 hj'
          have ho := ht.2.2.1
          cases ki with
          | true =>
            cases kj with
            | true => exact h6 i j hne ⟨bi, hi⟩ ⟨bj, hj'⟩ ho
            | false => exact h6' i j bj ⟨bi, hi⟩ hj' (by rw [← hstat j bj hj']; exact ho)
          | false =>
            cases kj with
            | true =>
              have := h6' j i bi ⟨bj, hj'⟩ hi (by rw [← hstat i bi hi]; obtain ⟨p, q, r⟩ := ho; exact ⟨p, r, q⟩)
              omega
            | false =>
              rcases hdyn with ⟨b, hb⟩ | ⟨b, hb⟩
              · rw [hi] at hb; cases hb
              · rw [hj'] at hb; cases hb
        by_contra hno
        rw [not_or] at hno
        rw [List.count_eq_zero.2 hno.1, List.count_eq_zero.2 hno.2] at hc
        omega
      rcases rep with h | h
      · exact .inl ((mem i j).2 ⟨h, ht⟩)
      · exact .inr ((mem j i).2 ⟨h, toTest_symm ht⟩)

/-! ## Examples -/

/-- Shapes 0 and 1 of bodies 7 and 8 are to be tested; not once a joint bars their bodies, nor on one body. -/
example : ToTest (fun i => i + 7) (fun _ => ⟨0, 1, 1⟩) exBB [(3, 7, 9)] (fun _ => false) 0 1 ∧
    ¬ ToTest (fun i => i + 7) (fun _ => ⟨0, 1, 1⟩) exBB [(3, 8, 7)] (fun _ => false) 0 1 ∧
    ToTest (fun i => i + 7) (fun _ => ⟨0, 1, 1⟩) exBB [(3, 8, 7)] (fun _ => true) 0 1 ∧
    ¬ ToTest (fun i => 7) (fun _ => ⟨0, 1, 1⟩) exBB [] (fun _ => true) 0 1 := by
  have hacc : Accepts ⟨0, 1, 1⟩ ⟨0, 1, 1⟩ := ⟨.inl rfl, ⟨0, by omega, rfl, rfl⟩, ⟨0, by omega, rfl, rfl⟩⟩
  have hov : Overlap (exBB 0) (exBB 1) := ⟨⟨1, 1⟩, by norm_num [InBox, exBB], by norm_num [InBox, exBB]⟩
  refine ⟨⟨by simp, hacc, hov, by simp⟩, fun h => ?_, ⟨by simp, hacc, hov, by simp⟩, fun h => h.1 rfl⟩
  exact (h.2.2.2 3 rfl).2 (by simp)

example : ∀ j b, exIndex j = some (false, b) → (fun i => if i = 2 then (⟨0, -1, 9, 0⟩ : BB ℚ) else exBB i) j = b := by
  intro j b h
  by_cases h2 : j = 2
  · subst h2; simp [exIndex, Index.set] at h ⊢; exact h
  · by_cases h1 : j = 1
    · subst h1; simp [exIndex, Index.set] at h
    · by_cases h0 : j = 0
      · subst h0; simp [exIndex, Index.set] at h
      · simp [exIndex, Index.set, h0, h1, h2, emptyIndex] at h

end Cm
