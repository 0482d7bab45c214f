import Verif.Model.BBTree
import Verif.Props.BB
import Verif.Spec.Rounded
import Mathlib.Data.List.Perm.Basic
import Mathlib.Data.List.Nodup
import Mathlib.Data.List.Count
import Mathlib.Tactic.Common
/-! # Lemmas about the bounding box trees -/
set_option linter.unusedSectionVars false
set_option linter.unusedSimpArgs false
namespace Cm
namespace BBTree
open Spec
variable {K : Type} [Zero K] [One K] [Add K] [Sub K] [Mul K] [Div K] [Neg K] [NatCast K] [LinearOrder K] [Spec.Rounded K]

/-! ## Boxes -/

theorem merge_comm (a b : BB K) : a.merge b = b.merge a := by
  unfold BB.merge; ext <;> simp [min_comm, max_comm]

theorem merge_assoc (a b c : BB K) : (a.merge b).merge c = a.merge (b.merge c) := by
  unfold BB.merge; ext <;> simp [min_assoc, max_assoc]

theorem intersects_symm (a b : BB K) : a.intersects b = b.intersects a := by
  unfold BB.intersects
  cases decide (a.L ≤ b.R) <;> cases decide (b.L ≤ a.R) <;> cases decide (a.B ≤ b.T) <;>
    cases decide (b.B ≤ a.T) <;> rfl

theorem intersects_merge_left {a b q : BB K} (h : a.intersects q = true) : (a.merge b).intersects q = true := by
  rw [BB.intersects_iff] at h ⊢
  obtain ⟨h1, h2, h3, h4⟩ := h
  exact ⟨le_trans (min_le_left _ _) h1, le_trans h2 (le_max_left _ _), le_trans (min_le_left _ _) h3,
    le_trans h4 (le_max_left _ _)⟩

theorem intersects_merge_right {a b q : BB K} (h : b.intersects q = true) : (a.merge b).intersects q = true := by
  rw [merge_comm]; exact intersects_merge_left h

theorem contains_refl (a : BB K) : a.contains a = true := by
  rw [BB.contains_iff]; exact ⟨le_refl _, le_refl _, le_refl _, le_refl _⟩

theorem contains_trans {a b c : BB K} (h : a.contains b = true) (h' : b.contains c = true) : a.contains c = true := by
  rw [BB.contains_iff] at *
  obtain ⟨h1, h2, h3, h4⟩ := h
  obtain ⟨g1, g2, g3, g4⟩ := h'
  exact ⟨le_trans h1 g1, le_trans g2 h2, le_trans h3 g3, le_trans g4 h4⟩

theorem intersects_of_contains {a b c d : BB K} (h : a.contains b = true) (h' : c.contains d = true)
    (hi : b.intersects d = true) : a.intersects c = true := by
  rw [BB.contains_iff] at h h'
  rw [BB.intersects_iff] at *
  obtain ⟨h1, h2, h3, h4⟩ := h
  obtain ⟨g1, g2, g3, g4⟩ := h'
  obtain ⟨i1, i2, i3, i4⟩ := hi
  exact ⟨le_trans h1 (le_trans i1 g2), le_trans g1 (le_trans i2 h2), le_trans h3 (le_trans i3 g4),
    le_trans g3 (le_trans i4 h4)⟩

theorem fatBB_contains {bb : BB K} (v : V2 K) (h : Spec.Proper bb) : (fatBB bb v).contains bb = true := by
  rw [BB.contains_iff]
  obtain ⟨hx, hy⟩ := h
  have h10 : (0 : K) ≤ 1 / 10 := Rounded.div_nonneg _ _ Rounded.zero_le_one (Rounded.nat_nonneg 10)
  have h1 : 0 ≤ (bb.R - bb.L) * (1/10 : K) := Rounded.mul_nonneg _ _ (Rounded.sub_nonneg _ _ hx) h10
  have h2 : 0 ≤ (bb.T - bb.B) * (1/10 : K) := Rounded.mul_nonneg _ _ (Rounded.sub_nonneg _ _ hy) h10
  have less : ∀ x y z : K, 0 ≤ y → x + min (-y) z ≤ x := fun x y z h => by
    have h3 : min (-y) z ≤ 0 := le_trans (min_le_left _ _) (by have := Rounded.neg_le_neg _ _ h; rwa [Rounded.neg_zero] at this)
    have := Rounded.add_le_add _ _ x h3
    rwa [Rounded.add_zero] at this
  have more : ∀ x y z : K, 0 ≤ y → x ≤ x + max y z := fun x y z h => by
    have := Rounded.add_le_add _ _ x (le_trans h (le_max_left y z))
    rwa [Rounded.add_zero] at this
  exact ⟨less _ _ _ h1, more _ _ _ h1, less _ _ _ h2, more _ _ _ h2⟩

/-! ## Trees -/

/-- Every inner box is exactly the merge of the boxes of its children. -/
def Tight : Tree K → Prop
  | .leaf _ => True
  | .node bb a b => bb = a.bb.merge b.bb ∧ Tight a ∧ Tight b

def ids (ls : List (Leaf K)) : List Nat := ls.map (·.id)

@[simp] theorem ids_append (a b : List (Leaf K)) : ids (a ++ b) = ids a ++ ids b := List.map_append
@[simp] theorem ids_cons (l : Leaf K) (b : List (Leaf K)) : ids (l :: b) = l.id :: ids b := rfl
@[simp] theorem ids_nil : ids ([] : List (Leaf K)) = [] := rfl
theorem mem_ids {i : Nat} {ls : List (Leaf K)} : i ∈ ids ls ↔ ∃ l ∈ ls, l.id = i := List.mem_map

theorem bb_insert (l : Leaf K) : ∀ t : Tree K, (t.insert l).bb = t.bb.merge l.bb
  | .leaf l' => by simp [Tree.insert, Tree.newNode, Tree.bb, merge_comm]
  | .node bb a b => by
    unfold Tree.insert
    split <;> rfl

theorem tight_insert (l : Leaf K) : ∀ t : Tree K, Tight t → Tight (t.insert l)
  | .leaf l', _ => by simp [Tree.insert, Tree.newNode, Tight]
  | .node bb a b, ⟨h, ha, hb⟩ => by
    unfold Tree.insert
    split
    · refine ⟨?_, ha, tight_insert l b hb⟩
      rw [bb_insert, h, merge_assoc]
    · refine ⟨?_, tight_insert l a ha, hb⟩
      rw [bb_insert, h, merge_assoc, merge_comm b.bb, ← merge_assoc]

theorem leaves_insert (l : Leaf K) : ∀ t : Tree K, (t.insert l).leaves.Perm (l :: t.leaves)
  | .leaf l' => by simp [Tree.insert, Tree.newNode, Tree.leaves]
  | .node bb a b => by
    unfold Tree.insert
    split
    · simp only [Tree.leaves]
      exact ((leaves_insert l b).append_left _).trans List.perm_middle
    · simp only [Tree.leaves]
      exact (leaves_insert l a).append_right _

theorem leaves_insertRoot (l : Leaf K) (t : Option (Tree K)) :
    (insertRoot l t).leaves.Perm (l :: leavesOf t) := by
  cases t with
  | none => simp [insertRoot, leavesOf, Tree.leaves]
  | some t => exact leaves_insert l t

def TightO (t : Option (Tree K)) : Prop := ∀ t' ∈ t, Tight t'

theorem tight_insertRoot (l : Leaf K) (t : Option (Tree K)) (h : TightO t) : Tight (insertRoot l t) := by
  cases t with
  | none => simp [insertRoot, Tight]
  | some t => exact tight_insert l t (h t rfl)

theorem has_iff (i : Nat) : ∀ t : Tree K, t.has i = true ↔ i ∈ ids t.leaves
  | .leaf l => by
    simp only [Tree.has, Tree.leaves, ids_cons, ids_nil, List.mem_singleton, beq_iff_eq]
    exact eq_comm
  | .node bb a b => by
    simp [Tree.has, Tree.leaves, has_iff i a, has_iff i b]

theorem leaves_ne_nil : ∀ t : Tree K, t.leaves ≠ []
  | .leaf l => by simp [Tree.leaves]
  | .node bb a b => by simp [Tree.leaves, leaves_ne_nil a]

theorem filter_absent {i : Nat} {ls : List (Leaf K)} (h : i ∉ ids ls) :
    ls.filter (fun l => !(l.id == i)) = ls := by
  rw [List.filter_eq_self]
  intro l hl
  have : l.id ≠ i := fun e => h (mem_ids.2 ⟨l, hl, e⟩)
  simpa using this

theorem leaves_remove (i : Nat) : ∀ t : Tree K, (ids t.leaves).Nodup →
    leavesOf (t.remove i) = t.leaves.filter (fun l => !(l.id == i))
  | .leaf l, _ => by
    unfold Tree.remove
    by_cases h : l.id = i <;> simp [h, leavesOf, Tree.leaves]
  | .node bb a b, hn => by
    simp only [Tree.leaves, ids_append] at hn
    have hna := hn.of_append_left
    have hnb := hn.of_append_right
    have hd : List.Disjoint (ids a.leaves) (ids b.leaves) := List.disjoint_of_nodup_append hn
    have iha := leaves_remove i a hna
    have ihb := leaves_remove i b hnb
    unfold Tree.remove
    simp only [Tree.leaves, List.filter_append]
    by_cases h1 : a.has i = true
    · have hb : i ∉ ids b.leaves := fun h => hd ((has_iff i a).1 h1) h
      rw [if_pos h1, filter_absent hb, ← iha]
      cases a.remove i <;> simp [leavesOf, Tree.leaves]
    · have ha : i ∉ ids a.leaves := fun h => h1 ((has_iff i a).2 h)
      rw [if_neg h1, filter_absent ha]
      by_cases h2 : b.has i = true
      · rw [if_pos h2, ← ihb]
        cases b.remove i <;> simp [leavesOf, Tree.leaves]
      · have hb : i ∉ ids b.leaves := fun h => h2 ((has_iff i b).2 h)
        rw [if_neg h2, filter_absent hb]
        simp [leavesOf, Tree.leaves]

theorem tight_remove (i : Nat) : ∀ t : Tree K, Tight t → TightO (t.remove i)
  | .leaf l, _ => by
    unfold Tree.remove
    by_cases h : l.id = i <;> simp [h, TightO, Tight]
  | .node bb a b, ⟨h, ha, hb⟩ => by
    have iha := tight_remove i a ha
    have ihb := tight_remove i b hb
    unfold Tree.remove
    split
    · cases hr : a.remove i with
      | none => simpa [TightO] using hb
      | some a' => rw [hr] at iha; simpa [TightO, Tight] using ⟨iha a' rfl, hb⟩
    · split
      · cases hr : b.remove i with
        | none => simpa [TightO] using ha
        | some b' => rw [hr] at ihb; simpa [TightO, Tight] using ⟨ha, ihb b' rfl⟩
      · simpa [TightO, Tight] using ⟨h, ha, hb⟩

theorem find?_eq (i : Nat) : ∀ t : Tree K, t.find? i = t.leaves.find? (fun l => l.id == i)
  | .leaf l => by
    unfold Tree.find?
    by_cases h : l.id = i <;> simp [h, Tree.leaves]
  | .node bb a b => by
    unfold Tree.find?
    rw [find?_eq i a, find?_eq i b, Tree.leaves, List.find?_append]

theorem bb_contains_leaf : ∀ t : Tree K, Tight t → ∀ l ∈ t.leaves, t.bb.contains l.bb = true
  | .leaf l, _, l', h => by
    simp [Tree.leaves] at h; subst h; exact contains_refl _
  | .node bb a b, ⟨h, ha, hb⟩, l, hl => by
    have hm := fun (x y : BB K) => (BB.contains_iff (x.merge y) x).2
      ⟨min_le_left _ _, le_max_left _ _, min_le_left _ _, le_max_left _ _⟩
    simp only [Tree.leaves, List.mem_append] at hl
    change bb.contains l.bb = true
    rw [h]
    rcases hl with hl | hl
    · exact contains_trans (hm _ _) (bb_contains_leaf a ha l hl)
    · rw [merge_comm]; exact contains_trans (hm _ _) (bb_contains_leaf b hb l hl)

/-- A node whose box misses the query has no leaf that meets it. -/
theorem filter_nil_of_miss (t : Tree K) (ht : Tight t) (q : BB K) (h : ¬ t.bb.intersects q = true) :
    t.leaves.filter (fun l => l.bb.intersects q) = [] := by
  rw [List.filter_eq_nil_iff]
  intro l hl hc
  exact h (intersects_of_contains (bb_contains_leaf t ht l hl) (contains_refl q) hc)

theorem query_eq (q : BB K) : ∀ t : Tree K, Tight t →
    t.query q = ids (t.leaves.filter (fun l => l.bb.intersects q))
  | .leaf l, _ => by
    unfold Tree.query
    by_cases h : l.bb.intersects q = true <;> simp [h, Tree.leaves]
  | .node bb a b, ht => by
    unfold Tree.query
    by_cases h : bb.intersects q = true
    · rw [if_pos h, query_eq q a ht.2.1, query_eq q b ht.2.2, Tree.leaves, List.filter_append, ids_append]
    · rw [if_neg h, filter_nil_of_miss (.node bb a b) ht q h]; rfl

/-! ## Marking -/

/-- What `MarkLeafQuery` does at a leaf `s` that meets the box. -/
def hit (leaf : Leaf K) (left : Bool) (m : Marks) (s : Leaf K) : Marks :=
  if left then { m with pairs := (leaf.id, s.id) :: m.pairs }
  else
    { pairs := if s.stamp < leaf.stamp then (s.id, leaf.id) :: m.pairs else m.pairs
      calls := m.calls ++ [(leaf.id, s.id)] }

theorem markLeafQuery_eq (l : Leaf K) (left : Bool) : ∀ (t : Tree K) (_ : Tight t) (m : Marks),
    markLeafQuery l left t m = (t.leaves.filter (fun s => s.bb.intersects l.bb)).foldl (hit l left) m
  | .leaf s, _, m => by
    unfold markLeafQuery
    rw [intersects_symm]
    by_cases h : s.bb.intersects l.bb = true
    · rw [if_pos h]; simp [Tree.leaves, h, hit]
    · rw [if_neg h]; simp [Tree.leaves, h]
  | .node bb a b, ht, m => by
    unfold markLeafQuery
    rw [intersects_symm]
    by_cases h : bb.intersects l.bb = true
    · rw [if_pos h, markLeafQuery_eq l left a ht.2.1, markLeafQuery_eq l left b ht.2.2, Tree.leaves,
        List.filter_append, List.foldl_append]
    · rw [if_neg h, filter_nil_of_miss (.node bb a b) ht _ h]; rfl

theorem hits_pairs_left (l : Leaf K) (p : Nat × Nat) : ∀ (ls : List (Leaf K)) (m : Marks),
    (ls.foldl (hit l true) m).pairs.count p = m.pairs.count p + (ls.map (fun s => (l.id, s.id))).count p ∧
    (ls.foldl (hit l true) m).calls = m.calls
  | [], m => by simp
  | s :: ls, m => by
    have ih := hits_pairs_left l p ls (hit l true m s)
    rw [List.foldl_cons]
    refine ⟨?_, ?_⟩
    · rw [ih.1]
      simp [hit, List.count_cons]
      omega
    · rw [ih.2]; simp [hit]

theorem hits_right (l : Leaf K) (p : Nat × Nat) : ∀ (ls : List (Leaf K)) (m : Marks),
    (ls.foldl (hit l false) m).pairs.count p = m.pairs.count p +
      ((ls.filter (fun s => decide (s.stamp < l.stamp))).map (fun s => (s.id, l.id))).count p ∧
    (ls.foldl (hit l false) m).calls.count p = m.calls.count p + (ls.map (fun s => (l.id, s.id))).count p
  | [], m => by simp
  | s :: ls, m => by
    have ih := hits_right l p ls (hit l false m s)
    rw [List.foldl_cons, ih.1, ih.2]
    by_cases h : s.stamp < l.stamp
    · simp [hit, List.count_cons, List.count_append, h]
      omega
    · simp [hit, List.count_cons, List.count_append, h]
      omega

/-- Leaves below the right, and below the left, sibling subtrees. -/
def rightLeaves (ss : List (Bool × Tree K)) : List (Leaf K) :=
  (ss.map (fun s => if s.1 then s.2.leaves else [])).flatten
def leftLeaves (ss : List (Bool × Tree K)) : List (Leaf K) :=
  (ss.map (fun s => if s.1 then [] else s.2.leaves)).flatten

theorem siblings_tight (i : Nat) : ∀ t : Tree K, Tight t → ∀ s ∈ t.siblings i, Tight s.2
  | .leaf l, _, s, h => by simp [Tree.siblings] at h
  | .node bb a b, ht, s, h => by
    unfold Tree.siblings at h
    split at h <;> rw [List.mem_append] at h <;> rcases h with h | h
    · exact siblings_tight i a ht.2.1 s h
    · simp at h; subst h; exact ht.2.2
    · exact siblings_tight i b ht.2.2 s h
    · simp at h; subst h; exact ht.2.1

/-- The walk from the leaf to the root passes all other leaves: those to the left on the left, those to the right on
the right. -/
theorem siblings_split (i : Nat) : ∀ t : Tree K, (ids t.leaves).Nodup → i ∈ ids t.leaves →
    ∃ l A B, t.leaves = A ++ l :: B ∧ l.id = i ∧ rightLeaves (t.siblings i) = B ∧
      (leftLeaves (t.siblings i)).Perm A
  | .leaf l, _, h => by
    simp [Tree.leaves] at h
    exact ⟨l, [], [], by simp [Tree.leaves], h.symm, by simp [Tree.siblings, rightLeaves],
      by simp [Tree.siblings, leftLeaves]⟩
  | .node bb a b, hn, h => by
    simp only [Tree.leaves, ids_append, List.mem_append] at hn h
    unfold Tree.siblings
    by_cases h1 : a.has i = true
    · obtain ⟨l, A, B, h2, h3, h4, h5⟩ := siblings_split i a hn.of_append_left ((has_iff i a).1 h1)
      refine ⟨l, A, B ++ b.leaves, ?_, h3, ?_, ?_⟩
      · simp [Tree.leaves, h2]
      · rw [if_pos h1]
        simp only [rightLeaves, List.map_append, List.flatten_append] at h4 ⊢
        rw [h4]; simp
      · rw [if_pos h1]
        simp only [leftLeaves, List.map_append, List.flatten_append] at h5 ⊢
        simpa using h5
    · have hb : i ∈ ids b.leaves := h.resolve_left (fun h => h1 ((has_iff i a).2 h))
      obtain ⟨l, A, B, h2, h3, h4, h5⟩ := siblings_split i b hn.of_append_right hb
      refine ⟨l, a.leaves ++ A, B, ?_, h3, ?_, ?_⟩
      · simp [Tree.leaves, h2]
      · rw [if_neg h1]
        simp only [rightLeaves, List.map_append, List.flatten_append] at h4 ⊢
        rw [h4]; simp
      · rw [if_neg h1]
        simp only [leftLeaves, List.map_append, List.flatten_append] at h5 ⊢
        simpa using (h5.append_right _).trans List.perm_append_comm

theorem foldSiblings (l : Leaf K) (p : Nat × Nat) : ∀ (ss : List (Bool × Tree K)) (_ : ∀ s ∈ ss, Tight s.2) (m : Marks),
    (ss.foldl (fun m s => markLeafQuery l s.1 s.2 m) m).pairs.count p = m.pairs.count p +
      (((rightLeaves ss).filter (fun s => s.bb.intersects l.bb)).map (fun s => (l.id, s.id))).count p +
      ((((leftLeaves ss).filter (fun s => s.bb.intersects l.bb)).filter (fun s => decide (s.stamp < l.stamp))).map
        (fun s => (s.id, l.id))).count p ∧
    (ss.foldl (fun m s => markLeafQuery l s.1 s.2 m) m).calls.count p = m.calls.count p +
      (((leftLeaves ss).filter (fun s => s.bb.intersects l.bb)).map (fun s => (l.id, s.id))).count p
  | [], _, m => by simp [rightLeaves, leftLeaves]
  | (true, t) :: ss, ht, m => by
    have ih := foldSiblings l p ss (fun s hs => ht s (List.mem_cons_of_mem _ hs)) (markLeafQuery l true t m)
    rw [List.foldl_cons]
    refine ⟨ih.1.trans ?_, ih.2.trans ?_⟩
    · rw [markLeafQuery_eq l true t (ht _ List.mem_cons_self), (hits_pairs_left l p _ m).1]
      simp only [rightLeaves, leftLeaves, List.map_cons, List.flatten_cons, List.filter_append, List.map_append,
        List.count_append, if_true, List.nil_append]
      omega
    · rw [markLeafQuery_eq l true t (ht _ List.mem_cons_self), (hits_pairs_left l p _ m).2]
      simp [leftLeaves]
  | (false, t) :: ss, ht, m => by
    have ih := foldSiblings l p ss (fun s hs => ht s (List.mem_cons_of_mem _ hs)) (markLeafQuery l false t m)
    rw [List.foldl_cons]
    refine ⟨ih.1.trans ?_, ih.2.trans ?_⟩
    · rw [markLeafQuery_eq l false t (ht _ List.mem_cons_self), (hits_right l p _ m).1]
      simp only [rightLeaves, leftLeaves, List.map_cons, List.flatten_cons, List.filter_append, List.map_append,
        List.count_append, List.nil_append, if_neg (Bool.false_ne_true)]
      omega
    · rw [markLeafQuery_eq l false t (ht _ List.mem_cons_self), (hits_right l p _ m).2]
      simp only [rightLeaves, leftLeaves, List.map_cons, List.flatten_cons, List.filter_append, List.map_append,
        List.count_append, List.nil_append, if_neg (Bool.false_ne_true)]
      omega

/-- Effect of visiting an unmoved leaf. -/
theorem markLeaf_unmoved (stamp : Nat) (root : Tree K) (sr : Option (Tree K)) (l : Leaf K) (m : Marks)
    (h : l.stamp ≠ stamp) (p : Nat × Nat) :
    (markLeaf stamp root sr l m).pairs = m.pairs ∧
    (markLeaf stamp root sr l m).calls.count p = m.calls.count p + if p.2 = l.id then m.pairs.count p else 0 := by
  unfold markLeaf
  rw [if_neg h]
  have key : ∀ (qs : List (Nat × Nat)) (m : Marks),
      (qs.foldl (fun m q => if q.2 == l.id then { m with calls := m.calls ++ [(q.1, l.id)] } else m) m).pairs = m.pairs ∧
      (qs.foldl (fun m q => if q.2 == l.id then { m with calls := m.calls ++ [(q.1, l.id)] } else m) m).calls.count p
        = m.calls.count p + if p.2 = l.id then qs.count p else 0 := by
    intro qs
    induction qs with
    | nil => intro m; simp
    | cons q qs ih =>
      intro m
      rw [List.foldl_cons]
      have ih' := ih (if (q.2 == l.id) = true then { m with calls := m.calls ++ [(q.1, l.id)] } else m)
      refine ⟨ih'.1.trans ?_, ih'.2.trans ?_⟩
      · split <;> rfl
      · by_cases hq : q.2 = l.id
        · have hb : (q.2 == l.id) = true := by simpa using hq
          rw [if_pos hb]
          have hqe : (q.1, l.id) = q := by rw [← hq]
          by_cases hp : p.2 = l.id
          · simp only [if_pos hp, List.count_append, List.count_cons, hqe, List.count_nil]; omega
          · have : ¬ q = p := fun e => hp (e ▸ hq)
            simp [hp, List.count_append, List.count_cons, hqe, this]
        · have hb : ¬ (q.2 == l.id) = true := by simpa using hq
          rw [if_neg hb]
          by_cases hp : p.2 = l.id
          · have : ¬ q = p := fun e => hq (e ▸ hp)
            simp [hp, List.count_cons, this]
          · simp [hp]
  have k := key (m.pairs.filter (fun p => p.1 == l.id || p.2 == l.id)) m
  refine ⟨k.1, k.2.trans ?_⟩
  by_cases hp : p.2 = l.id
  · rw [if_pos hp, if_pos hp, List.count_filter]; simp [hp]
  · rw [if_neg hp, if_neg hp]

/-- Effect of visiting a moved leaf, in terms of the leaves before (`A`) and after (`B`) it. -/
theorem markLeaf_moved (stamp : Nat) (root : Tree K) (sr : Option (Tree K)) (l : Leaf K) (m : Marks)
    (A B : List (Leaf K))
    (h : l.stamp = stamp) (ht : Tight root) (hts : TightO sr) (hn : (ids root.leaves).Nodup)
    (hl : root.leaves = A ++ l :: B) (p : Nat × Nat) :
    (markLeaf stamp root sr l m).pairs.count p = m.pairs.count p +
      ((((leavesOf sr).filter (fun s => s.bb.intersects l.bb)).filter (fun s => decide (s.stamp < l.stamp))).map
        (fun s => (s.id, l.id))).count p +
      ((B.filter (fun s => s.bb.intersects l.bb)).map (fun s => (l.id, s.id))).count p +
      (((A.filter (fun s => s.bb.intersects l.bb)).filter (fun s => decide (s.stamp < l.stamp))).map
        (fun s => (s.id, l.id))).count p ∧
    (markLeaf stamp root sr l m).calls.count p = m.calls.count p +
      (((leavesOf sr).filter (fun s => s.bb.intersects l.bb)).map (fun s => (l.id, s.id))).count p +
      ((A.filter (fun s => s.bb.intersects l.bb)).map (fun s => (l.id, s.id))).count p := by
  have hmem : l.id ∈ ids root.leaves := by simp [hl]
  obtain ⟨l', A', B', h2, h3, h4, h5⟩ := siblings_split l.id root hn hmem
  have hAB : A' = A ∧ B' = B := by
    have e : A ++ l :: B = A' ++ l' :: B' := hl.symm.trans h2
    rw [hl] at hn
    rw [List.append_eq_append_iff] at e
    rcases e with ⟨c, e1, e2⟩ | ⟨c, e1, e2⟩
    · cases c with
      | nil => simp at e1 e2; exact ⟨e1, e2.2.symm⟩
      | cons x c =>
        simp only [List.cons_append, List.cons.injEq] at e2
        obtain ⟨rfl, e2⟩ := e2
        exfalso
        rw [e2] at hn
        simp only [ids_append, ids_cons] at hn
        have hy := (List.nodup_cons.1 hn.of_append_right).1
        apply hy
        simp [h3]
    · cases c with
      | nil => simp at e1 e2; exact ⟨e1.symm, e2.2⟩
      | cons x c =>
        simp only [List.cons_append, List.cons.injEq] at e2
        obtain ⟨rfl, e2⟩ := e2
        exfalso
        rw [e1] at hn
        simp only [ids_append, ids_cons, List.append_assoc, List.cons_append] at hn
        have hy := (List.nodup_cons.1 hn.of_append_right).1
        apply hy
        simp [h3]
  obtain ⟨rfl, rfl⟩ := hAB
  unfold markLeaf
  rw [if_pos h]
  have key : ∀ m', m' = markStatic l sr m →
      m'.pairs.count p = m.pairs.count p +
        ((((leavesOf sr).filter (fun s => s.bb.intersects l.bb)).filter (fun s => decide (s.stamp < l.stamp))).map
        (fun s => (s.id, l.id))).count p ∧
      m'.calls.count p = m.calls.count p +
        (((leavesOf sr).filter (fun s => s.bb.intersects l.bb)).map (fun s => (l.id, s.id))).count p := by
    rintro m' rfl
    cases sr with
    | none => simp [leavesOf, markStatic]
    | some t =>
      dsimp only [markStatic]
      rw [markLeafQuery_eq l false t (hts t rfl)]
      exact hits_right l p _ m
  have k := key _ rfl
  dsimp only
  have f := foldSiblings l p (root.siblings l.id) (siblings_tight _ _ ht)
  refine ⟨(f _).1.trans ?_, (f _).2.trans ?_⟩
  · rw [k.1, h4, (((h5.filter _).filter _).map _).count_eq]
  · rw [k.2, ((h5.filter _).map _).count_eq]

theorem markSubtree_eq (stamp : Nat) (root : Tree K) (sr : Option (Tree K)) : ∀ (t : Tree K) (m : Marks),
    markSubtree stamp root sr t m = t.leaves.foldl (fun m l => markLeaf stamp root sr l m) m
  | .leaf l, m => by simp [markSubtree, Tree.leaves]
  | .node bb a b, m => by
    simp [markSubtree, Tree.leaves, markSubtree_eq stamp root sr a, markSubtree_eq stamp root sr b]

end BBTree
end Cm
