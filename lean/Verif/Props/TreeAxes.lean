import Verif.Model.BBTree
import Verif.Props.FrameDetect
/-! # C110: the broad phase does not depend on the origin, the unit of length or the axes -/
set_option linter.unusedSectionVars false
set_option linter.unusedSimpArgs false
set_option linter.unusedVariables false

namespace Cm
open Spec BBTree
variable {K : Type} [Field K] [LinearOrder K] [IsStrictOrderedRing K]

namespace Spec
/-- One change of the coordinates: another origin, another unit of length, the first axis turned round, the two axes exchanged. -/
inductive AxisMove (K : Type) where
  | shift (d : V2 K)
  | zoom (k : K)
  | mirror
  | exchange

namespace AxisMove
/-- The unit of length is positive. -/
def Proper : AxisMove K → Prop
  | .zoom k => 0 < k
  | _ => True
/-- A place in the new coordinates. -/
def pt : AxisMove K → V2 K → V2 K
  | .shift d, p => ⟨p.x + d.x, p.y + d.y⟩
  | .zoom k, p => ⟨k * p.x, k * p.y⟩
  | .mirror, p => ⟨-p.x, p.y⟩
  | .exchange, p => ⟨p.y, p.x⟩
/-- A velocity in the new coordinates. -/
def vec : AxisMove K → V2 K → V2 K
  | .shift _, v => v
  | .zoom k, v => ⟨k * v.x, k * v.y⟩
  | .mirror, v => ⟨-v.x, v.y⟩
  | .exchange, v => ⟨v.y, v.x⟩
/-- A box in the new coordinates. -/
def box : AxisMove K → BB K → BB K
  | .shift d, b => ⟨b.L + d.x, b.B + d.y, b.R + d.x, b.T + d.y⟩
  | .zoom k, b => ⟨k * b.L, k * b.B, k * b.R, k * b.T⟩
  | .mirror, b => ⟨-b.R, b.B, -b.L, b.T⟩
  | .exchange, b => ⟨b.B, b.L, b.T, b.R⟩
end AxisMove

/-- Other coordinates: changes one after the other. -/
structure Axes (K : Type) where
  moves : List (AxisMove K)

namespace Axes
def Proper (A : Axes K) : Prop := ∀ m ∈ A.moves, m.Proper
def pt (A : Axes K) (p : V2 K) : V2 K := A.moves.foldl (fun p m => m.pt p) p
def vec (A : Axes K) (v : V2 K) : V2 K := A.moves.foldl (fun v m => m.vec v) v
def box (A : Axes K) (b : BB K) : BB K := A.moves.foldl (fun b m => m.box b) b

/-- An operation of the broad phase in the new coordinates. -/
def op (A : Axes K) : Op K → Op K
  | .insertDyn i bb v => .insertDyn i (A.box bb) (A.vec v)
  | .insertStat i bb => .insertStat i (A.box bb)
  | .removeDyn i => .removeDyn i
  | .removeStat i => .removeStat i
  | .reindexDyn i bb v => .reindexDyn i (A.box bb) (A.vec v)
  | .reindexStat i bb => .reindexStat i (A.box bb)
  | .reindexQuery order bbf vel => .reindexQuery order (fun i => A.box (bbf i)) (fun i => A.vec (vel i))
end Axes
end Spec

/-- What the broad phase needs of a change of coordinates. -/
structure BoxSym (f : BB K → BB K) (g h : V2 K → V2 K) : Prop where
  merge : ∀ a b, (f a).merge (f b) = f (a.merge b)
  inter : ∀ a b, (f a).intersects (f b) = a.intersects b
  cont : ∀ a b, (f a).contains (f b) = a.contains b
  vect : ∀ a p, (f a).containsVect (h p) = a.containsVect p
  area : ∃ k, 0 < k ∧ (∀ a, (f a).area = k * a.area) ∧ ∀ a b, (f a).mergedArea (f b) = k * a.mergedArea b
  prox : ∃ k, 0 < k ∧ ∀ a b, (f a).proximity (f b) = k * a.proximity b
  fat : ∀ a v, fatBB (f a) (g v) = f (fatBB a v)
  ray : ∀ inf a p q, (f a).segmentQuery inf (h p) (h q) = a.segmentQuery inf p q

theorem BoxSym.comp {f f' : BB K → BB K} {g h g' h' : V2 K → V2 K} (s : BoxSym f g h) (s' : BoxSym f' g' h') :
    BoxSym (fun b => f' (f b)) (fun v => g' (g v)) (fun p => h' (h p)) := by
  refine ⟨fun a b => by rw [s'.merge, s.merge], fun a b => by rw [s'.inter, s.inter], fun a b => by rw [s'.cont, s.cont], fun a p => by rw [s'.vect, s.vect],
    ?_, ?_, fun a v => by rw [s'.fat, s.fat], fun inf a p q => by rw [s'.ray, s.ray]⟩
  · obtain ⟨k, hk, h1, h2⟩ := s.area
    obtain ⟨k', hk', h1', h2'⟩ := s'.area
    exact ⟨k' * k, mul_pos hk' hk, fun a => by rw [h1', h1, mul_assoc], fun a b => by rw [h2', h2, mul_assoc]⟩
  · obtain ⟨k, hk, h1⟩ := s.prox
    obtain ⟨k', hk', h1'⟩ := s'.prox
    exact ⟨k' * k, mul_pos hk' hk, fun a b => by rw [h1', h1, mul_assoc]⟩

theorem boxSym_id : BoxSym (K := K) (fun b => b) (fun v => v) (fun p => p) :=
  ⟨fun _ _ => rfl, fun _ _ => rfl, fun _ _ => rfl, fun _ _ => rfl, ⟨1, one_pos, fun a => (one_mul _).symm, fun a b => (one_mul _).symm⟩,
    ⟨1, one_pos, fun a b => (one_mul _).symm⟩, fun _ _ => rfl, fun _ _ _ _ => rfl⟩

theorem slab_shift (a d lo hi m n x : K) : BB.slab (a + x) d (lo + x) (hi + x) m n = BB.slab a d lo hi m n := by
  unfold BB.slab
  simp only [add_lt_add_iff_right, add_sub_add_right_eq_sub]

theorem slab_zoom {k : K} (hk : 0 < k) (a d lo hi m n : K) : BB.slab (k * a) (k * d) (k * lo) (k * hi) m n = BB.slab a d lo hi m n := by
  unfold BB.slab
  have e : ∀ x y : K, (k * x - k * y) / (k * d) = (x - y) / d := fun x y => by rw [← mul_sub, mul_div_mul_left _ _ hk.ne']
  simp only [mul_eq_zero, hk.ne', false_or, mul_lt_mul_iff_right₀ hk, e]

theorem slab_mirror (a d lo hi m n : K) : BB.slab (-a) (-d) (-hi) (-lo) m n = BB.slab a d lo hi m n := by
  unfold BB.slab
  have e : ∀ x y : K, (-x - -y) / -d = (x - y) / d := fun x y => by rw [neg_sub_neg, ← neg_sub x y, neg_div_neg_eq]
  simp only [neg_eq_zero, neg_lt_neg_iff, e, min_comm ((hi - a) / d), max_comm ((hi - a) / d), or_comm]

/-- The two axes of a ray may be handled in any order. -/
theorem ray_exchange (inf : K) (bb : BB K) (p q : V2 K) :
    (AxisMove.box .exchange bb).segmentQuery inf (AxisMove.pt .exchange p) (AxisMove.pt .exchange q) = bb.segmentQuery inf p q := by
  simp only [AxisMove.box, AxisMove.pt, BB.segmentQuery, V2.sub, BB.slab]
  by_cases h1 : q.x - p.x = 0 <;> by_cases h2 : q.y - p.y = 0
  · simp only [h1, h2, if_true]
    by_cases a1 : p.x < bb.L ∨ bb.R < p.x <;> by_cases a2 : p.y < bb.B ∨ bb.T < p.y <;> simp [a1, a2]
  · simp only [h1, h2, if_true, if_false]
    by_cases a1 : p.x < bb.L ∨ bb.R < p.x <;> simp [a1]
  · simp only [h1, h2, if_true, if_false]
    by_cases a2 : p.y < bb.B ∨ bb.T < p.y <;> simp [a2]
  · simp only [h1, h2, if_false]
    rw [max_right_comm, min_right_comm]

theorem bb_intersects_iff (a b : BB K) : a.intersects b = true ↔ a.L ≤ b.R ∧ b.L ≤ a.R ∧ a.B ≤ b.T ∧ b.B ≤ a.T := by
  simp [BB.intersects, and_assoc]
theorem bb_contains_iff (a b : BB K) : a.contains b = true ↔ a.L ≤ b.L ∧ b.R ≤ a.R ∧ a.B ≤ b.B ∧ b.T ≤ a.T := by
  simp [BB.contains, and_assoc]
theorem bb_containsVect_iff (a : BB K) (p : V2 K) : a.containsVect p = true ↔ a.L ≤ p.x ∧ p.x ≤ a.R ∧ a.B ≤ p.y ∧ p.y ≤ a.T := by
  simp [BB.containsVect, and_assoc]

theorem axisMove_sym {m : AxisMove K} (hm : m.Proper) : BoxSym m.box m.vec m.pt := by
  cases m with
  | shift d =>
    refine ⟨?_, ?_, ?_, ?_, ⟨1, one_pos, ?_, ?_⟩, ⟨1, one_pos, ?_⟩, ?_, ?_⟩
    · intro a b; simp only [AxisMove.box, BB.merge, min_add_add_right, max_add_add_right]
    · intro a b; simp only [AxisMove.box, BB.intersects, add_le_add_iff_right]
    · intro a b; simp only [AxisMove.box, BB.contains, ge_iff_le, add_le_add_iff_right]
    · intro a b; simp only [AxisMove.box, AxisMove.pt, BB.containsVect, ge_iff_le, add_le_add_iff_right]
    · intro a; simp only [AxisMove.box, BB.area]; ring
    · intro a b; simp only [AxisMove.box, BB.mergedArea, min_add_add_right, max_add_add_right]; ring
    · intro a b
      simp only [AxisMove.box, BB.proximity, fabs_eq]
      rw [one_mul]
      congr 2 <;> ring
    · intro a v
      simp only [AxisMove.box, AxisMove.vec, fatBB, add_sub_add_right_eq_sub, BB.mk.injEq]
      refine ⟨by ring, by ring, by ring, by ring⟩
    · intro inf a p q
      simp only [AxisMove.box, AxisMove.pt, BB.segmentQuery, V2.sub, add_sub_add_right_eq_sub, slab_shift]
  | zoom k =>
    have hk : 0 < k := hm
    have mn : ∀ a b : K, min (k * a) (k * b) = k * min a b := fun a b => (mul_min_of_nonneg a b hk.le).symm
    have mx : ∀ a b : K, max (k * a) (k * b) = k * max a b := fun a b => (mul_max_of_nonneg a b hk.le).symm
    refine ⟨?_, ?_, ?_, ?_, ⟨k * k, mul_pos hk hk, ?_, ?_⟩, ⟨k, hk, ?_⟩, ?_, ?_⟩
    · intro a b; simp only [AxisMove.box, BB.merge, mn, mx]
    · intro a b; simp only [AxisMove.box, BB.intersects, mul_le_mul_iff_right₀ hk]
    · intro a b; simp only [AxisMove.box, BB.contains, ge_iff_le, mul_le_mul_iff_right₀ hk]
    · intro a b; simp only [AxisMove.box, AxisMove.pt, BB.containsVect, ge_iff_le, mul_le_mul_iff_right₀ hk]
    · intro a; simp only [AxisMove.box, BB.area]; ring
    · intro a b; simp only [AxisMove.box, BB.mergedArea, mn, mx]; ring
    · intro a b
      simp only [AxisMove.box, BB.proximity, fabs_eq]
      rw [mul_add, ← abs_of_pos hk, ← abs_mul, ← abs_mul, abs_of_pos hk]
      congr 2 <;> ring
    · intro a v
      have e1 : ∀ x y w : K, min (-((k * x - k * y) * (1/10))) (k * w * (1/10)) = k * min (-((x - y) * (1/10))) (w * (1/10)) := by
        intro x y w; rw [← mn]; congr 1 <;> ring
      have e2 : ∀ x y w : K, max ((k * x - k * y) * (1/10)) (k * w * (1/10)) = k * max ((x - y) * (1/10)) (w * (1/10)) := by
        intro x y w; rw [← mx]; congr 1 <;> ring
      simp only [AxisMove.box, AxisMove.vec, fatBB, V2.scale, e1, e2, BB.mk.injEq]
      refine ⟨by ring, by ring, by ring, by ring⟩
    · intro inf a p q
      simp only [AxisMove.box, AxisMove.pt, BB.segmentQuery, V2.sub, ← mul_sub, slab_zoom hk]
  | mirror =>
    refine ⟨?_, ?_, ?_, ?_, ⟨1, one_pos, ?_, ?_⟩, ⟨1, one_pos, ?_⟩, ?_, ?_⟩
    · intro a b; simp only [AxisMove.box, BB.merge, min_neg_neg, max_neg_neg]
    · intro a b
      rw [Bool.eq_iff_iff, bb_intersects_iff, bb_intersects_iff]
      simp only [AxisMove.box, AxisMove.pt, neg_le_neg_iff]
      tauto
    · intro a b
      rw [Bool.eq_iff_iff, bb_contains_iff, bb_contains_iff]
      simp only [AxisMove.box, AxisMove.pt, neg_le_neg_iff]
      tauto
    · intro a p
      rw [Bool.eq_iff_iff, bb_containsVect_iff, bb_containsVect_iff]
      simp only [AxisMove.box, AxisMove.pt, neg_le_neg_iff]
      tauto
    · intro a; simp only [AxisMove.box, BB.area]; ring
    · intro a b; simp only [AxisMove.box, BB.mergedArea, min_neg_neg, max_neg_neg]; ring
    · intro a b
      simp only [AxisMove.box, BB.proximity, fabs_eq]
      rw [one_mul, show -a.R + -a.L - -b.R - -b.L = -(a.L + a.R - b.L - b.R) by ring, abs_neg]
    · intro a v
      have e1 : ∀ x y w : K, min (-((-y - -x) * (1/10))) (-w * (1/10)) = -max ((x - y) * (1/10)) (w * (1/10)) := by
        intro x y w; rw [← min_neg_neg]; congr 1 <;> ring
      have e2 : ∀ x y w : K, max ((-y - -x) * (1/10)) (-w * (1/10)) = -min (-((x - y) * (1/10))) (w * (1/10)) := by
        intro x y w; rw [← max_neg_neg]; congr 1 <;> ring
      simp only [AxisMove.box, AxisMove.vec, fatBB, V2.scale, e1, e2, BB.mk.injEq]
      refine ⟨by ring, trivial, by ring, trivial⟩
    · intro inf a p q
      have e : -q.x - -p.x = -(q.x - p.x) := by ring
      simp only [AxisMove.box, AxisMove.pt, BB.segmentQuery, V2.sub, e, slab_mirror]
  | exchange =>
    refine ⟨?_, ?_, ?_, ?_, ⟨1, one_pos, ?_, ?_⟩, ⟨1, one_pos, ?_⟩, ?_, ?_⟩
    · intro a b; rfl
    · intro a b
      rw [Bool.eq_iff_iff, bb_intersects_iff, bb_intersects_iff]
      simp only [AxisMove.box, AxisMove.pt, neg_le_neg_iff]
      tauto
    · intro a b
      rw [Bool.eq_iff_iff, bb_contains_iff, bb_contains_iff]
      simp only [AxisMove.box, AxisMove.pt, neg_le_neg_iff]
      tauto
    · intro a b
      rw [Bool.eq_iff_iff, bb_containsVect_iff, bb_containsVect_iff]
      simp only [AxisMove.box, AxisMove.pt, neg_le_neg_iff]
      tauto
    · intro a; simp only [AxisMove.box, BB.area]; ring
    · intro a b; simp only [AxisMove.box, BB.mergedArea]; ring
    · intro a b; simp only [AxisMove.box, BB.proximity, fabs_eq]; ring
    · intro a v; rfl
    · exact fun inf a p q => ray_exchange inf a p q

theorem axes_sym {A : Axes K} (hA : A.Proper) : BoxSym A.box A.vec A.pt := by
  obtain ⟨l⟩ := A
  have : ∀ (l : List (AxisMove K)), (∀ m ∈ l, m.Proper) → BoxSym (fun b => l.foldl (fun b m => m.box b) b) (fun v => l.foldl (fun v m => m.vec v) v)
      (fun p => l.foldl (fun p m => m.pt p) p) := by
    intro l
    induction l with
    | nil => intro _; exact boxSym_id
    | cons m l ih =>
      intro h
      exact (axisMove_sym (h m List.mem_cons_self)).comp (ih fun x hx => h x (List.mem_cons_of_mem _ hx))
  exact this l hA

/-! ## The trees -/

/-- A tree with other boxes. -/
def mapTree (f : BB K → BB K) : BBTree.Tree K → BBTree.Tree K
  | .leaf l => .leaf ⟨l.id, f l.bb, l.stamp⟩
  | .node bb a b => .node (f bb) (mapTree f a) (mapTree f b)

def mapState (f : BB K → BB K) (s : State K) : State K := ⟨s.dyn.map (mapTree f), s.stat.map (mapTree f), s.stamp, s.pairs⟩

section
variable {f : BB K → BB K} {g h : V2 K → V2 K} (S : BoxSym f g h)
include S

theorem mapTree_bb (t : BBTree.Tree K) : (mapTree f t).bb = f t.bb := by cases t <;> rfl

omit S in
theorem mapTree_has (i : Nat) (t : BBTree.Tree K) : (mapTree f t).has i = t.has i := by
  induction t with
  | leaf l => rfl
  | node bb a b iha ihb => simp only [mapTree, BBTree.Tree.has, iha, ihb]

theorem mapTree_goesRight (a b : BBTree.Tree K) (lb : BB K) : BBTree.Tree.goesRight (mapTree f a) (mapTree f b) (f lb) = BBTree.Tree.goesRight a b lb := by
  obtain ⟨k, hk, h1, h2⟩ := S.area
  obtain ⟨k', hk', h3⟩ := S.prox
  unfold BBTree.Tree.goesRight
  simp only [mapTree_bb S, h1, h2, h3, ← mul_add, mul_lt_mul_iff_right₀ hk, mul_lt_mul_iff_right₀ hk', mul_right_inj' hk.ne']

theorem mapTree_insert (l : Leaf K) (t : BBTree.Tree K) : (mapTree f t).insert ⟨l.id, f l.bb, l.stamp⟩ = mapTree f (t.insert l) := by
  induction t with
  | leaf l' => simp only [mapTree, BBTree.Tree.insert, BBTree.Tree.newNode, BBTree.Tree.bb, S.merge]
  | node bb a b iha ihb =>
    simp only [mapTree, BBTree.Tree.insert, mapTree_goesRight S, S.merge]
    split
    · simp only [mapTree, ihb]
    · simp only [mapTree, iha]

theorem mapTree_insertRoot (l : Leaf K) (t : Option (BBTree.Tree K)) : insertRoot ⟨l.id, f l.bb, l.stamp⟩ (t.map (mapTree f)) = mapTree f (insertRoot l t) := by
  cases t with
  | none => rfl
  | some t => exact mapTree_insert S l t

theorem mapTree_remove (i : Nat) (t : BBTree.Tree K) : (mapTree f t).remove i = (t.remove i).map (mapTree f) := by
  induction t with
  | leaf l => simp only [mapTree, BBTree.Tree.remove]; split <;> rfl
  | node bb a b iha ihb =>
    simp only [mapTree, BBTree.Tree.remove, mapTree_has, iha, ihb]
    split
    · cases a.remove i with
      | none => rfl
      | some a' => simp only [Option.map_some, mapTree_bb S, S.merge, mapTree]
    · split
      · cases b.remove i with
        | none => rfl
        | some b' => simp only [Option.map_some, mapTree_bb S, S.merge, mapTree]
      · rfl

omit S in
theorem mapTree_find (i : Nat) (t : BBTree.Tree K) : (mapTree f t).find? i = (t.find? i).map fun l => ⟨l.id, f l.bb, l.stamp⟩ := by
  induction t with
  | leaf l => simp only [mapTree, BBTree.Tree.find?]; split <;> rfl
  | node bb a b iha ihb =>
    simp only [mapTree, BBTree.Tree.find?, iha, ihb]
    cases a.find? i <;> rfl

omit S in
theorem mapTree_leaves (t : BBTree.Tree K) : (mapTree f t).leaves = t.leaves.map fun l => ⟨l.id, f l.bb, l.stamp⟩ := by
  induction t with
  | leaf l => rfl
  | node bb a b iha ihb => simp only [mapTree, BBTree.Tree.leaves, iha, ihb, List.map_append]

omit S in
theorem mapState_any (i : Nat) (t : Option (BBTree.Tree K)) : (leavesOf (t.map (mapTree f))).any (fun l => l.id == i) = (leavesOf t).any (fun l => l.id == i) := by
  cases t with
  | none => rfl
  | some t => simp [leavesOf, mapTree_leaves, List.any_map, Function.comp_def]

omit S in
theorem mapTree_siblings (i : Nat) (t : BBTree.Tree K) : (mapTree f t).siblings i = (t.siblings i).map fun s => (s.1, mapTree f s.2) := by
  induction t with
  | leaf l => rfl
  | node bb a b iha ihb =>
    simp only [mapTree, BBTree.Tree.siblings, mapTree_has, iha, ihb]
    split <;> simp

theorem mapTree_query (q : BB K) (t : BBTree.Tree K) : (mapTree f t).query (f q) = t.query q := by
  induction t with
  | leaf l => simp only [mapTree, BBTree.Tree.query, S.inter]
  | node bb a b iha ihb => simp only [mapTree, BBTree.Tree.query, S.inter, iha, ihb]

theorem mapTree_segmentQuery {σ : Type} (inf : K) (p q : V2 K) (w : Nat → σ → K × σ) (t : BBTree.Tree K) : ∀ (e : K) (s : σ),
    (mapTree f t).segmentQuery inf (h p) (h q) w e s = t.segmentQuery inf p q w e s := by
  induction t with
  | leaf l => intro e s; rfl
  | node bb a b iha ihb =>
    intro e s
    simp only [mapTree, BBTree.Tree.segmentQuery, mapTree_bb S, S.ray, iha, ihb]

theorem mapTree_markLeafQuery (l : Leaf K) (left : Bool) (t : BBTree.Tree K) : ∀ m : Marks,
    markLeafQuery ⟨l.id, f l.bb, l.stamp⟩ left (mapTree f t) m = markLeafQuery l left t m := by
  induction t with
  | leaf s => intro m; simp only [mapTree, markLeafQuery, S.inter]
  | node bb a b iha ihb => intro m; simp only [mapTree, markLeafQuery, S.inter, iha, ihb]

theorem mapTree_markStatic (l : Leaf K) (t : Option (BBTree.Tree K)) (m : Marks) :
    markStatic ⟨l.id, f l.bb, l.stamp⟩ (t.map (mapTree f)) m = markStatic l t m := by
  cases t with
  | none => rfl
  | some t => exact mapTree_markLeafQuery S l false t m

theorem mapTree_markLeaf (stamp : Nat) (root : BBTree.Tree K) (stat : Option (BBTree.Tree K)) (l : Leaf K) (m : Marks) :
    markLeaf stamp (mapTree f root) (stat.map (mapTree f)) ⟨l.id, f l.bb, l.stamp⟩ m = markLeaf stamp root stat l m := by
  unfold markLeaf
  simp only
  split
  · rw [mapTree_markStatic S, mapTree_siblings, List.foldl_map]
    simp only [mapTree_markLeafQuery S]
  · rfl

theorem mapTree_markSubtree (stamp : Nat) (root : BBTree.Tree K) (stat : Option (BBTree.Tree K)) (t : BBTree.Tree K) : ∀ m : Marks,
    markSubtree stamp (mapTree f root) (stat.map (mapTree f)) (mapTree f t) m = markSubtree stamp root stat t m := by
  induction t with
  | leaf l => intro m; exact mapTree_markLeaf S stamp root stat l m
  | node bb a b iha ihb => intro m; simp only [mapTree, markSubtree, iha, ihb]

theorem mapState_addDyn (s : State K) (l : Leaf K) : leafAddPairsDyn (mapState f s) ⟨l.id, f l.bb, l.stamp⟩ = mapState f (leafAddPairsDyn s l) := by
  unfold leafAddPairsDyn
  obtain ⟨d, st, sp, ps⟩ := s
  cases d with
  | none => rfl
  | some t =>
    simp only [mapState, Option.map_some, voidMarks, mapTree_markLeaf S]

theorem mapState_addStat (s : State K) (l : Leaf K) : leafAddPairsStat (mapState f s) ⟨l.id, f l.bb, l.stamp⟩ = mapState f (leafAddPairsStat s l) := by
  unfold leafAddPairsStat
  obtain ⟨d, st, sp, ps⟩ := s
  cases d with
  | none => rfl
  | some t =>
    simp only [mapState, Option.map_some, voidMarks, mapTree_markLeafQuery S]

theorem mapState_updateDyn (s : State K) (i : Nat) (bb : BB K) (v : V2 K) : leafUpdateDyn (mapState f s) i (f bb) (g v) =
    (mapState f (leafUpdateDyn s i bb v).1, (leafUpdateDyn s i bb v).2.map fun l => ⟨l.id, f l.bb, l.stamp⟩) := by
  unfold leafUpdateDyn
  obtain ⟨d, st, sp, ps⟩ := s
  cases d with
  | none => rfl
  | some t =>
    simp only [mapState, Option.map_some, mapTree_find]
    cases t.find? i with
    | none => rfl
    | some o =>
      simp only [Option.map_some, S.cont]
      split
      · rfl
      · have := mapTree_insertRoot S ⟨i, fatBB bb v, sp⟩ (t.remove i)
        simp only [S.fat, mapTree_remove S, Option.map_some] at this ⊢
        rw [this]

theorem mapState_updateStat (s : State K) (i : Nat) (bb : BB K) : leafUpdateStat (mapState f s) i (f bb) =
    (mapState f (leafUpdateStat s i bb).1, (leafUpdateStat s i bb).2.map fun l => ⟨l.id, f l.bb, l.stamp⟩) := by
  unfold leafUpdateStat
  obtain ⟨d, st, sp, ps⟩ := s
  cases st with
  | none => rfl
  | some t =>
    simp only [mapState, Option.map_some, mapTree_find]
    cases t.find? i with
    | none => rfl
    | some o =>
      simp only [Option.map_some, S.cont]
      split
      · rfl
      · have := mapTree_insertRoot S ⟨i, bb, sp⟩ (t.remove i)
        simp only [mapTree_remove S, Option.map_some] at this ⊢
        rw [this]

theorem mapState_reindexQuery (s : State K) (order : List Nat) (bbf : Nat → BB K) (vel : Nat → V2 K) :
    reindexQuery (mapState f s) order (fun i => f (bbf i)) (fun i => g (vel i)) = (mapState f (reindexQuery s order bbf vel).1, (reindexQuery s order bbf vel).2) := by
  have fold : ∀ (order : List Nat) (s : State K), order.foldl (fun s i => (leafUpdateDyn s i (f (bbf i)) (g (vel i))).1) (mapState f s) =
      mapState f (order.foldl (fun s i => (leafUpdateDyn s i (bbf i) (vel i)).1) s) := by
    intro order
    induction order with
    | nil => intro s; rfl
    | cons i order ih =>
      intro s
      simp only [List.foldl_cons, mapState_updateDyn S]
      exact ih _
  unfold reindexQuery
  have e : (mapState f s).dyn = s.dyn.map (mapTree f) := rfl
  rw [e]
  cases hd : s.dyn with
  | none => rfl
  | some t =>
    simp only [Option.map_some, fold]
    generalize order.foldl (fun s i => (leafUpdateDyn s i (bbf i) (vel i)).1) s = s'
    have e : (mapState f s').dyn = s'.dyn.map (mapTree f) := rfl
    rw [e]
    cases hd' : s'.dyn with
    | none => rfl
    | some root =>
      have es : (mapState f s').stat = s'.stat.map (mapTree f) := rfl
      simp only [Option.map_some, es, mapTree_markSubtree S]
      simp only [mapState, hd', Option.map_some]

theorem mapState_insertDyn (s : State K) (i : Nat) (bb : BB K) (v : V2 K) :
    insertDyn (mapState f s) i (f bb) (g v) = (insertDyn s i bb v).map (mapState f) := by
  unfold insertDyn
  have a1 := mapState_any (f := f) i s.dyn
  have a2 := mapState_any (f := f) i s.stat
  have e1 : (mapState f s).dyn = s.dyn.map (mapTree f) := rfl
  have e2 : (mapState f s).stat = s.stat.map (mapTree f) := rfl
  rw [e1, e2, List.any_append, List.any_append, a1, a2]
  split
  · rfl
  · have e3 : (mapState f s).stamp = s.stamp := rfl
    simp only [S.fat, e3]
    have h1 := mapTree_insertRoot S ⟨i, fatBB bb v, s.stamp⟩ s.dyn
    have h2 := mapState_addDyn S { s with dyn := some (insertRoot ⟨i, fatBB bb v, s.stamp⟩ s.dyn) } ⟨i, fatBB bb v, s.stamp⟩
    simp only at h1 h2
    rw [h1]
    exact congrArg (fun s : State K => some { s with stamp := s.stamp + 1 }) h2

theorem mapState_insertStat (s : State K) (i : Nat) (bb : BB K) :
    insertStat (mapState f s) i (f bb) = (insertStat s i bb).map (mapState f) := by
  unfold insertStat
  have a1 := mapState_any (f := f) i s.dyn
  have a2 := mapState_any (f := f) i s.stat
  have e1 : (mapState f s).dyn = s.dyn.map (mapTree f) := rfl
  have e2 : (mapState f s).stat = s.stat.map (mapTree f) := rfl
  rw [e1, e2, List.any_append, List.any_append, a1, a2]
  split
  · rfl
  · have e3 : (mapState f s).stamp = s.stamp := rfl
    simp only [e3]
    have h1 := mapTree_insertRoot S ⟨i, bb, s.stamp⟩ s.stat
    have h2 := mapState_addStat S { s with stat := some (insertRoot ⟨i, bb, s.stamp⟩ s.stat) } ⟨i, bb, s.stamp⟩
    simp only at h1 h2
    rw [h1]
    exact congrArg (fun s : State K => some { s with stamp := s.stamp + 1 }) h2

theorem mapState_reindexDyn (s : State K) (i : Nat) (bb : BB K) (v : V2 K) :
    reindexDyn (mapState f s) i (f bb) (g v) = mapState f (reindexDyn s i bb v) := by
  unfold reindexDyn
  have e1 : (mapState f s).dyn = s.dyn.map (mapTree f) := rfl
  rw [e1, mapState_any]
  split
  · rw [mapState_updateDyn S]
    generalize leafUpdateDyn s i bb v = r
    obtain ⟨s', l⟩ := r
    cases l with
    | none => rfl
    | some l =>
      simp only [Option.map_some]
      rw [mapState_addDyn S]
      rfl
  · rfl

theorem mapState_reindexStat (s : State K) (i : Nat) (bb : BB K) :
    reindexStat (mapState f s) i (f bb) = mapState f (reindexStat s i bb) := by
  unfold reindexStat
  have e1 : (mapState f s).stat = s.stat.map (mapTree f) := rfl
  rw [e1, mapState_any]
  split
  · rw [mapState_updateStat S]
    generalize leafUpdateStat s i bb = r
    obtain ⟨s', l⟩ := r
    cases l with
    | none => rfl
    | some l =>
      simp only [Option.map_some]
      rw [mapState_addStat S]
      rfl
  · rfl

theorem mapState_removeDyn (s : State K) (i : Nat) : removeDyn (mapState f s) i = (removeDyn s i).map (mapState f) := by
  unfold removeDyn
  obtain ⟨d, st, sp, ps⟩ := s
  cases d with
  | none => rfl
  | some t =>
    simp only [mapState, Option.map_some, mapTree_has, mapTree_remove S]
    split <;> rfl

theorem mapState_removeStat (s : State K) (i : Nat) : removeStat (mapState f s) i = (removeStat s i).map (mapState f) := by
  unfold removeStat
  obtain ⟨d, st, sp, ps⟩ := s
  cases st with
  | none => rfl
  | some t =>
    simp only [mapState, Option.map_some, mapTree_has, mapTree_remove S]
    split <;> rfl
end

section
variable {A : Axes K} (hA : A.Proper)
include hA

theorem step_axes (s : State K) (op : Op K) : step (mapState A.box s) (A.op op) = (step s op).map fun r => (mapState A.box r.1, r.2) := by
  have S := axes_sym hA
  cases op with
  | insertDyn i bb v => simp only [Axes.op, step, mapState_insertDyn S, Option.map_map]; rfl
  | insertStat i bb => simp only [Axes.op, step, mapState_insertStat S, Option.map_map]; rfl
  | removeDyn i => simp only [Axes.op, step, mapState_removeDyn S, Option.map_map]; rfl
  | removeStat i => simp only [Axes.op, step, mapState_removeStat S, Option.map_map]; rfl
  | reindexDyn i bb v => simp only [Axes.op, step, mapState_reindexDyn S, Option.map_some]
  | reindexStat i bb => simp only [Axes.op, step, mapState_reindexStat S, Option.map_some]
  | reindexQuery order bbf vel => simp only [Axes.op, step, mapState_reindexQuery S, Option.map_some]

theorem run_axes (ops : List (Op K)) : ∀ s : State K, run (mapState A.box s) (ops.map A.op) = (run s ops).map (mapState A.box) := by
  induction ops with
  | nil => intro s; rfl
  | cons op ops ih =>
    intro s
    simp only [List.map_cons, run, step_axes hA]
    cases step s op with
    | none => rfl
    | some r => exact ih r.1

/-- **C110.** Any history of the broad phase, told in other coordinates, goes the same way: it crashes at the same point or not at all, its trees have
the same form with the boxes in the new coordinates, it keeps the same pairs, and each step reports the same pairs in the same order. -/
theorem C110_history (ops : List (Op K)) : run init (ops.map A.op) = (run init ops).map (mapState A.box) := run_axes hA ops init

theorem C110_pairs (ops : List (Op K)) (s : State K) (hs : run init ops = some s) (order : List Nat) (bbf : Nat → BB K) (vel : Nat → V2 K) :
    ∃ s', run init (ops.map A.op) = some s' ∧
      (reindexQuery s' order (fun i => A.box (bbf i)) (fun i => A.vec (vel i))).2 = (reindexQuery s order bbf vel).2 := by
  refine ⟨mapState A.box s, by rw [C110_history hA, hs]; rfl, ?_⟩
  rw [mapState_reindexQuery (axes_sym hA)]

/-- **C110.** Box queries and ray casts of the space find the same shapes in the same order, at the same fractions of the ray. -/
theorem C110_queries (ops : List (Op K)) (s : State K) (hs : run init ops = some s) :
    ∃ s', run init (ops.map A.op) = some s' ∧
      (∀ q filter cur flt, spaceBBQuery s' (A.box q) filter (fun i => A.box (cur i)) flt = spaceBBQuery s q filter cur flt) ∧
      (∀ inf p q hit, segmentQueryFirst inf s' (A.pt p) (A.pt q) hit = segmentQueryFirst inf s p q hit) ∧
      (∀ inf p q hit, segmentQueryAll inf s' (A.pt p) (A.pt q) hit = segmentQueryAll inf s p q hit) := by
  have S := axes_sym hA
  refine ⟨mapState A.box s, by rw [C110_history hA, hs]; rfl, ?_, ?_, ?_⟩
  · intro q filter cur flt
    have root : ∀ t : Option (BBTree.Tree K), queryRoot (A.box q) (t.map (mapTree A.box)) = queryRoot q t := by
      intro t; cases t with
      | none => rfl
      | some t => exact mapTree_query S q t
    simp only [spaceBBQuery, mapState, root, S.inter]
  · intro inf p q hit
    have root : ∀ (t : Option (BBTree.Tree K)) e w, segmentRoot inf (A.pt p) (A.pt q) (queryFirst hit) (t.map (mapTree A.box)) e w = segmentRoot inf p q (queryFirst hit) t e w := by
      intro t e w; cases t with
      | none => rfl
      | some t => simp only [segmentRoot, Option.map_some, mapTree_segmentQuery S]
    simp only [segmentQueryFirst, mapState, root]
  · intro inf p q hit
    have root : ∀ (t : Option (BBTree.Tree K)) e w, segmentRoot inf (A.pt p) (A.pt q) (querySeg hit) (t.map (mapTree A.box)) e w = segmentRoot inf p q (querySeg hit) t e w := by
      intro t e w; cases t with
      | none => rfl
      | some t => simp only [segmentRoot, Option.map_some, mapTree_segmentQuery S]
    simp only [segmentQueryAll, mapState, root]
end

/-- **C110.** Together with C109: after any history, in a displaced world, with shapes cached from the displaced bodies, a step finds collisions for the same
pairs of shapes in the same order. -/
theorem C110_detect {F : Frame K} (hr : F.r = ⟨1, 0⟩) {M : Mth K} (hM : M.Lawful) {B inf : K} (tiny : K) (tr : Nat → Transform K) (cls : Nat → Cls K) (hash : Nat → BitVec 64)
    (body : Nat → Nat) (flt : Nat → ShapeFilter) (barred : Nat → Nat → Bool) (ids : Nat → Nat → Nat)
    (ops : List (Op K)) (s : State K) (hs : run init ops = some s) (order : List Nat) (vel : Nat → V2 K)
    (hn : ∀ x, F.Near B inf (cachedShape inf (tr x) (cls x) (hash x)).cls)
    (hm : ∀ x y, Small (4 * B) ((cachedShape inf (tr x) (cls x) (hash x)).bb.center.sub (cachedShape inf (tr y) (cls y) (hash y)).bb.center)) :
    ∃ s', run init (ops.map (Axes.mk [.shift F.d]).op) = some s' ∧
      foundPairs M inf tiny (fun x => cachedShape inf (F.tr (tr x)) (cls x) (hash x)) ids
          (narrowPairs body flt (fun x => (cachedShape inf (F.tr (tr x)) (cls x) (hash x)).bb) barred
            (reindexQuery s' order (fun x => (cachedShape inf (F.tr (tr x)) (cls x) (hash x)).bb) vel).2) =
        foundPairs M inf tiny (fun x => cachedShape inf (tr x) (cls x) (hash x)) ids
          (narrowPairs body flt (fun x => (cachedShape inf (tr x) (cls x) (hash x)).bb) barred
            (reindexQuery s order (fun x => (cachedShape inf (tr x) (cls x) (hash x)).bb) vel).2) := by
  have hA : (Axes.mk [AxisMove.shift F.d]).Proper := by intro m hm; rw [List.mem_singleton] at hm; subst hm; trivial
  obtain ⟨s', e, h⟩ := C110_pairs hA ops s hs order (fun x => (cachedShape inf (tr x) (cls x) (hash x)).bb) vel
  refine ⟨s', e, ?_⟩
  have hb : (fun x => (cachedShape inf (F.tr (tr x)) (cls x) (hash x)).bb) = fun i => (Axes.mk [AxisMove.shift F.d]).box (cachedShape inf (tr i) (cls i) (hash i)).bb := by
    funext x
    rw [C109_box hr (tr x) (cls x) (hash x) (hn x)]
    rfl
  have hq : (reindexQuery s' order (fun x => (cachedShape inf (F.tr (tr x)) (cls x) (hash x)).bb) vel).2 =
      (reindexQuery s order (fun x => (cachedShape inf (tr x) (cls x) (hash x)).bb) vel).2 := by
    rw [hb]; exact h
  rw [hq]
  exact C109_found hr hM tiny tr cls hash body flt barred ids _ (fun p _ x _ => hn x) (fun p _ => hm _ _)

/-! ## Examples -/

/-- The changes do to boxes what they do to the places in them. -/
theorem C110_box {A : Axes K} (hA : A.Proper) (b : BB K) (p : V2 K) : (A.box b).containsVect (A.pt p) = b.containsVect p := (axes_sym hA).vect b p

/-- A quarter turn about the origin, with lengths doubled, then a displacement. -/
def exAxes : Axes ℚ := ⟨[.exchange, .mirror, .zoom 2, .shift ⟨1, 3⟩]⟩
def exAxisOps : List (Op ℚ) := [.insertDyn 0 ⟨0, 0, 2, 1⟩ ⟨1, 0⟩, .insertStat 1 ⟨1, 0, 4, 1⟩, .insertDyn 2 ⟨3, 0, 5, 2⟩ ⟨-1, 0⟩, .insertDyn 3 ⟨9, 9, 10, 10⟩ ⟨0, 0⟩, .removeDyn 3]

example : exAxes.Proper ∧ exAxes.pt ⟨1, 0⟩ = ⟨1, 5⟩ ∧ exAxes.pt ⟨0, 1⟩ = ⟨-1, 3⟩ := by
  refine ⟨?_, by decide +kernel, by decide +kernel⟩
  intro m hm
  simp only [exAxes, List.mem_cons, List.not_mem_nil, or_false] at hm
  rcases hm with rfl | rfl | rfl | rfl <;> norm_num [AxisMove.Proper]

/-- Both histories report the same pairs. -/
example : ((run init exAxisOps).map fun s => (reindexQuery s [0, 2] (fun i => if i = 0 then ⟨2, 0, 4, 1⟩ else ⟨3, 0, 5, 2⟩) (fun _ => ⟨0, 0⟩)).2) = some [(0, 1), (0, 2), (1, 2)] ∧
    ((run init (exAxisOps.map exAxes.op)).map fun s =>
      (reindexQuery s [0, 2] (fun i => exAxes.box (if i = 0 then ⟨2, 0, 4, 1⟩ else ⟨3, 0, 5, 2⟩)) (fun _ => ⟨0, 0⟩)).2) = some [(0, 1), (0, 2), (1, 2)] := by
  constructor <;> decide +kernel

end Cm
