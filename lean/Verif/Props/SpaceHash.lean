import Verif.Proofs.SpaceHash
import Verif.Props.BBTree
import Mathlib.Data.Rat.Floor
import Mathlib.Tactic.NormNum

/-!
# C57, C58, C65: the spatial hash
-/

set_option linter.unusedSectionVars false
set_option linter.unusedSimpArgs false
set_option linter.unusedVariables false

namespace Cm
open Hash

/-! ### Specification -/

/-- Calls made of a spatial hash; `h` is a handle the pool returns, `order` the order in which the handles are walked. -/
inductive HOp (K : Type) where
  | insert (x h : Nat) (bb : BB K)
  | remove (x : Nat)
  | move (x h : Nat) (bb : BB K)
  | query (obj : Option Nat) (bb : BB K)
  | update (bb : Nat → BB K) (order : List Nat)

namespace Spec
variable {K : Type}

/-- The box with which each shape of the index was last indexed. -/
def boxes1 (B : Nat → Option (BB K)) : HOp K → Nat → Option (BB K)
  | .insert x _ bb => fun y => if y = x then some bb else B y
  | .remove x => fun y => if y = x then none else B y
  | .move x _ bb => fun y => if y = x then (B x).map fun _ => bb else B y
  | .query _ _ => B
  | .update bb _ => fun y => (B y).map fun _ => bb y

/-- The same after several calls on an empty index. -/
def boxes (ops : List (HOp K)) : Nat → Option (BB K) := ops.foldl boxes1 fun _ => none

end Spec
open Spec

variable {K : Type} [Field K] [LinearOrder K] [IsStrictOrderedRing K] [FloorRing K]

/-- The call. -/
def HOp.run (dim : K) (s : St) : HOp K → Option St
  | .insert x h bb => some (Hash.insert s x h (cells dim s.n bb))
  | .remove x => some (Hash.remove s x)
  | .move x h bb => some (reindexObject s x h (cells dim s.n bb))
  | .query obj bb => (Hash.query s obj (cells dim s.n bb)).map (·.1)
  | .update bb order => (reindexQuery s (fun x => cells dim s.n (bb x)) order).map (·.1)

/-- Shapes are inserted once; a handle comes from the pool as `sync.Pool` promises; walking the handle set meets each
handle once (C01). -/
def HOp.Ok (B : Nat → Option (BB K)) (s : St) : HOp K → Prop
  | .insert x h _ => B x = none ∧ CanGet s h
  | .remove _ => True
  | .move x h _ => B x ≠ none → CanGet (Hash.remove s x) h
  | .query _ _ => True
  | .update _ order => order.Perm s.set

/-- Several calls, each allowed when made; the state they end in. -/
inductive Hashed (dim : K) (n : Nat) : List (HOp K) → St → Prop
  | nil : Hashed dim n [] (Hash.empty n)
  | snoc {ops : List (HOp K)} {s t : St} {o : HOp K} : Hashed dim n ops s → o.Ok (boxes ops) s → o.run dim s = some t → Hashed dim n (ops ++ [o]) t

/-! ### Cells -/

theorem goFloor_eq (f : K) : goFloor f = ⌊f⌋ := by
  unfold goFloor Hash.trunc
  simp only
  by_cases h : f < 0
  · simp only [h, if_true, true_and]
    rw [Int.floor_neg, neg_neg]
    split
    · rename_i hne
      have h1 := Int.ceil_lt_add_one f
      have h2 := Int.le_ceil f
      have h3 : f < (⌈f⌉ : K) := lt_of_le_of_ne h2 (Ne.symm hne)
      rw [eq_comm, Int.floor_eq_iff]
      push_cast
      exact ⟨by linarith, by linarith⟩
    · rename_i he
      rw [ne_eq, not_not] at he
      rw [eq_comm, Int.floor_eq_iff]
      rw [he]; exact ⟨le_rfl, by linarith⟩
  · simp [h]

theorem mem_span (a b i : Int) : i ∈ span a b ↔ a ≤ i ∧ i ≤ b := by
  have e : span a b = (List.range (b - a + 1).toNat).map (fun k : Nat => a + (k : Int)) := rfl
  rw [e, List.mem_map]
  constructor
  · rintro ⟨k, hk, rfl⟩
    rw [List.mem_range] at hk
    omega
  · rintro ⟨h1, h2⟩
    exact ⟨(i - a).toNat, List.mem_range.2 (by omega), by omega⟩

/-- The grid cells of a box. -/
def Spec.inCell (dim : K) (bb : BB K) (i j : Int) : Prop :=
  ⌊bb.L / dim⌋ ≤ i ∧ i ≤ ⌊bb.R / dim⌋ ∧ ⌊bb.B / dim⌋ ≤ j ∧ j ≤ ⌊bb.T / dim⌋

theorem mem_cells (dim : K) (n : Nat) (bb : BB K) (k : Nat) : k ∈ cells dim n bb ↔ ∃ i j, inCell dim bb i j ∧ hashFunc i j n = k := by
  unfold cells inCell
  simp only [List.mem_flatMap, List.mem_map, mem_span, goFloor_eq]
  constructor
  · rintro ⟨i, ⟨h1, h2⟩, j, ⟨h3, h4⟩, rfl⟩; exact ⟨i, j, ⟨h1, h2, h3, h4⟩, rfl⟩
  · rintro ⟨i, j, ⟨h1, h2, h3, h4⟩, rfl⟩; exact ⟨i, ⟨h1, h2⟩, j, ⟨h3, h4⟩, rfl⟩

theorem cells_lt {dim : K} {n : Nat} (hn : 0 < n) (bb : BB K) : ∀ i ∈ cells dim n bb, i < n := by
  intro k hk
  obtain ⟨i, j, _, rfl⟩ := (mem_cells dim n bb k).1 hk
  exact Nat.mod_lt _ hn

theorem one_axis {dim l r l' r' : K} (hd : 0 < dim) (h1 : l ≤ r) (h2 : l' ≤ r') (h3 : l ≤ r') (h4 : l' ≤ r) :
    ∃ i : Int, (⌊l / dim⌋ ≤ i ∧ i ≤ ⌊r / dim⌋) ∧ ⌊l' / dim⌋ ≤ i ∧ i ≤ ⌊r' / dim⌋ := by
  have m : ∀ {a b : K}, a ≤ b → ⌊a / dim⌋ ≤ ⌊b / dim⌋ := fun h => Int.floor_mono (div_le_div_of_nonneg_right h (le_of_lt hd))
  rcases le_total l l' with h | h
  · exact ⟨⌊l' / dim⌋, ⟨m h, m h4⟩, le_rfl, m h2⟩
  · exact ⟨⌊l / dim⌋, ⟨le_rfl, m h1⟩, m h, m h3⟩

/-- Boxes that meet have a cell in common. -/
theorem intersects_cell {dim : K} (hd : 0 < dim) {a b : BB K} (ha : Proper a) (hb : Proper b) (h : a.intersects b = true) :
    ∃ i j, inCell dim a i j ∧ inCell dim b i j := by
  simp only [BB.intersects, Bool.and_eq_true, decide_eq_true_eq] at h
  obtain ⟨⟨⟨h1, h2⟩, h3⟩, h4⟩ := h
  obtain ⟨i, ⟨a1, a2⟩, a3, a4⟩ := one_axis hd ha.1 hb.1 h1 h2
  obtain ⟨j, ⟨b1, b2⟩, b3, b4⟩ := one_axis hd ha.2 hb.2 h3 h4
  exact ⟨i, j, ⟨a1, a2, b1, b2⟩, a3, a4, b3, b4⟩

/-! ### Histories -/

theorem boxes_snoc (ops : List (HOp K)) (o : HOp K) : boxes (ops ++ [o]) = boxes1 (boxes ops) o := by simp [boxes]

/-- The cells the shapes should be in. -/
def filing (dim : K) (n : Nat) (B : Nat → Option (BB K)) : Nat → Option (List Nat) := fun x => (B x).map (cells dim n)

theorem filing_none {dim : K} {n : Nat} {B : Nat → Option (BB K)} {x : Nat} : filing dim n B x = none ↔ B x = none := by simp [filing]

/-- One call. -/
theorem hrun_ok {dim : K} {n : Nat} (hn : 0 < n) {B : Nat → Option (BB K)} {s : St} (H : Hash.Ok s) (F : Filed s (filing dim n B)) (hs : s.n = n) (o : HOp K) (ho : o.Ok B s) :
    ∃ t, o.run dim s = some t ∧ Hash.Ok t ∧ Filed t (filing dim n (boxes1 B o)) ∧ t.n = n := by
  subst hs
  have ins : ∀ (s : St) (B : Nat → Option (BB K)) (x h : Nat) (bb : BB K), Hash.Ok s → 0 < s.n → Filed s (filing dim s.n B) → B x = none → CanGet s h →
      Hash.Ok (Hash.insert s x h (cells dim s.n bb)) ∧ Filed (Hash.insert s x h (cells dim s.n bb)) (filing dim s.n (fun y => if y = x then some bb else B y)) ∧
        (Hash.insert s x h (cells dim s.n bb)).n = s.n := by
    intro s B x h bb H hn F hx hg
    obtain ⟨H1, n1, _, _, F1⟩ := insert_ok (l := cells dim s.n bb) H F (filing_none.2 hx) hg (cells_lt hn bb)
    refine ⟨H1, ?_, n1⟩
    convert F1 using 1
    funext y
    unfold filing
    simp only
    split <;> rfl
  have rem : ∀ x, Hash.Ok (Hash.remove s x) ∧ Filed (Hash.remove s x) (filing dim s.n (fun y => if y = x then none else B y)) ∧ (Hash.remove s x).n = s.n := by
    intro x
    obtain ⟨H1, n1, F1⟩ := remove_ok H F x
    refine ⟨H1, ?_, n1⟩
    convert F1 using 1
    funext y
    unfold filing
    simp only
    split <;> rfl
  cases o with
  | insert x h bb =>
    obtain ⟨a, b, c⟩ := ins s B x h bb H hn F ho.1 ho.2
    exact ⟨_, rfl, a, b, c⟩
  | remove x =>
    obtain ⟨a, b, c⟩ := rem x
    exact ⟨_, rfl, a, b, c⟩
  | move x h bb =>
    simp only [HOp.run, reindexObject]
    cases hf : find s x with
    | none =>
      have hx := filing_none.1 ((F.find_none_iff x).1 hf)
      refine ⟨s, rfl, H, ?_, rfl⟩
      convert F using 2
      funext y
      simp only [boxes1]
      split
      · rename_i e; rw [e, hx]; rfl
      · rfl
    | some g =>
      have hx : B x ≠ none := by
        intro hc
        rw [(F.find_none_iff x).2 (filing_none.2 hc)] at hf; cases hf
      obtain ⟨a, b, c⟩ := rem x
      obtain ⟨a', b', c'⟩ := ins (Hash.remove s x) _ x h bb a (by rw [c]; exact hn) (by rw [c]; exact b) (by simp) (ho hx)
      rw [c] at a' b' c'
      refine ⟨_, rfl, a', ?_, c'⟩
      convert b' using 2
      funext y
      simp only [boxes1]
      split
      · obtain ⟨b0, hb0⟩ := Option.ne_none_iff_exists'.1 hx
        rw [hb0]; rfl
      · rfl
  | query obj bb =>
    obtain ⟨t, o, e, H1, F1, n1, _⟩ := query_ok H F obj (cells dim s.n bb)
    exact ⟨t, by simp [HOp.run, e], H1, F1, n1⟩
  | update bb order =>
    obtain ⟨H1, a1, b1, c1, d1⟩ := clearTable_ok H
    have hp : order.Perm (clearTable s).set := by rw [a1]; exact ho
    obtain ⟨t, P, e, H2, a2, b2, c2, t2, _⟩ := rehashAll_ok (fun x => cells dim s.n (bb x)) order [] (clearTable s) H1 (by intro x; rw [b1]; exact cells_lt hn _)
      (fun h hh => hp.mem_iff.1 hh) (by simp) (hp.nodup_iff.2 H1.inv.setNodup) (by simp) (by intro i g; rw [d1]; simp)
    refine ⟨t, by simp [HOp.run, reindexQuery, e], H2, ⟨?_, ?_⟩, b2.trans b1⟩
    · intro h hh x hx
      have hx' : ((clearTable s).hd h).obj = some x := (c2 h).symm.trans hx
      have hx0 : (s.hd h).obj = some x := (c1 h).symm.trans hx'
      have hh0 : h ∈ s.set := by rw [← a1, ← a2]; exact hh
      obtain ⟨l, e1, _⟩ := F.1 h hh0 x hx0
      have hB : B x ≠ none := by intro hc; rw [filing_none.2 hc] at e1; cases e1
      obtain ⟨b0, hb0⟩ := Option.ne_none_iff_exists'.1 hB
      refine ⟨cells dim s.n (bb x), by simp [filing, boxes1, hb0], fun i => ?_⟩
      rw [t2]
      constructor
      · rintro ⟨_, y, hy, hi⟩
        rw [hx', Option.some.injEq] at hy; subst hy; exact hi
      · intro hi
        exact ⟨Or.inr (hp.mem_iff.2 (by rw [← a2]; exact hh)), x, hx', hi⟩
    · intro x hx
      have hB : filing dim s.n B x ≠ none := by
        intro hc
        apply hx
        rw [filing_none] at hc ⊢
        simp [boxes1, hc]
      obtain ⟨h, h1, h2⟩ := F.2 x hB
      exact ⟨h, by rw [a2, a1]; exact h1, by rw [c2, c1]; exact h2⟩

theorem Hashed.ok {dim : K} {n : Nat} (hn : 0 < n) {ops : List (HOp K)} {s : St} (h : Hashed dim n ops s) :
    Hash.Ok s ∧ Filed s (filing dim n (boxes ops)) ∧ s.n = n := by
  induction h with
  | nil => exact ⟨Ok.empty n, ⟨by simp [Hash.empty], by simp [filing, boxes]⟩, rfl⟩
  | snoc h1 h2 h3 ih =>
    obtain ⟨H, F, hs⟩ := ih
    obtain ⟨t, e, H', F', hn'⟩ := hrun_ok hn H F hs _ h2
    rw [e, Option.some.injEq] at h3
    subst h3
    rw [boxes_snoc]
    exact ⟨H', F', hn'⟩

/-- No call of the spatial hash fails. -/
theorem C57_total {dim : K} {n : Nat} (hn : 0 < n) {ops : List (HOp K)} {s : St} (h : Hashed dim n ops s) (o : HOp K) (ho : o.Ok (boxes ops) s) :
    ∃ t, o.run dim s = some t ∧ Hashed dim n (ops ++ [o]) t := by
  obtain ⟨H, F, hs⟩ := h.ok hn
  obtain ⟨t, e, _⟩ := hrun_ok hn H F hs o ho
  exact ⟨t, e, .snoc h ho e⟩

/-- A handle to which nothing refers may be returned by the pool. -/
theorem CanGet.of_ret {s : St} (H : Hash.Ok s) {h : Nat} (e : (s.hd h).ret = 0) : CanGet s h := by
  have c := H.inv.count h
  rw [e] at c
  unfold refs at c
  simp only [Nat.cast_zero, add_zero] at c
  have c' : (if h ∈ s.set then 1 else 0) + ((Finset.range s.n).filter fun i => h ∈ s.table i).card = 0 := by exact_mod_cast c.symm
  refine Or.inr ⟨fun hh => ?_, fun i hi => ?_⟩
  · rw [if_pos hh] at c'; omega
  · have hlt : i < s.n := by
      by_contra hc
      rw [H.inv.bound i (by omega)] at hi; cases hi
    have : 0 < ((Finset.range s.n).filter fun i => h ∈ s.table i).card := Finset.card_pos.2 ⟨i, by simp [hlt, hi]⟩
    omega

/-! ### C57 -/

/-- The cells of two boxes have a place of the table in common. -/
def Spec.meet (dim : K) (n : Nat) (a b : BB K) : Prop := ∃ i j i' j', inCell dim a i j ∧ inCell dim b i' j' ∧ hashFunc i j n = hashFunc i' j' n

/-- A box query reports each shape at most once, and reports exactly the other shapes whose cells meet those of the box:
in particular every other shape whose box meets it. -/
theorem C57_query {dim : K} {n : Nat} (hn : 0 < n) {ops : List (HOp K)} {s : St} (h : Hashed dim n ops s) (obj : Option Nat) (q : BB K) :
    ∃ t o, Hash.query s obj (cells dim s.n q) = some (t, o) ∧ o.Nodup ∧
      (∀ x, x ∈ o ↔ some x ≠ obj ∧ ∃ b, boxes ops x = some b ∧ meet dim n b q) ∧
      (0 < dim → Proper q → ∀ x b, boxes ops x = some b → Proper b → b.intersects q = true → some x ≠ obj → x ∈ o) := by
  obtain ⟨H, F, rfl⟩ := h.ok hn
  obtain ⟨t, o, e, _, _, _, _, hnd, hm⟩ := query_ok H F obj (cells dim s.n q)
  have key : ∀ x, x ∈ o ↔ some x ≠ obj ∧ ∃ b, boxes ops x = some b ∧ meet dim s.n b q := by
    intro x
    rw [hm]
    constructor
    · rintro ⟨h1, m, h2, i, h3, h4⟩
      obtain ⟨b, hb, rfl⟩ := Option.map_eq_some_iff.1 h2
      obtain ⟨i1, j1, h5, h6⟩ := (mem_cells dim s.n b i).1 h4
      obtain ⟨i2, j2, h7, h8⟩ := (mem_cells dim s.n q i).1 h3
      exact ⟨h1, b, hb, i1, j1, i2, j2, h5, h7, h6.trans h8.symm⟩
    · rintro ⟨h1, b, hb, i1, j1, i2, j2, h5, h7, h6⟩
      exact ⟨h1, cells dim s.n b, by simp [filing, hb], hashFunc i2 j2 s.n, (mem_cells ..).2 ⟨i2, j2, h7, rfl⟩, (mem_cells ..).2 ⟨i1, j1, h5, h6⟩⟩
  refine ⟨t, o, e, hnd, key, ?_⟩
  intro hd hq x b hb hpb hi hne
  obtain ⟨i, j, h1, h2⟩ := intersects_cell hd hpb hq hi
  exact (key x).2 ⟨hne, b, hb, i, j, i, j, h1, h2, rfl⟩

theorem share_iff {dim : K} {n : Nat} (bb : Nat → BB K) (x y : Nat) : share (fun x => cells dim n (bb x)) x y ↔ meet dim n (bb x) (bb y) := by
  constructor
  · rintro ⟨k, h1, h2⟩
    obtain ⟨i, j, a, b⟩ := (mem_cells dim n _ k).1 h1
    obtain ⟨i', j', c, d⟩ := (mem_cells dim n _ k).1 h2
    exact ⟨i, j, i', j', a, c, b.trans d.symm⟩
  · rintro ⟨i, j, i', j', a, c, e⟩
    exact ⟨hashFunc i j n, (mem_cells ..).2 ⟨i, j, a, rfl⟩, (mem_cells ..).2 ⟨i', j', c, e.symm⟩⟩

open Classical in
/-- The collision query with the boxes `bb`: each pair of shapes of the index whose cells meet is reported exactly once, in
one of the two orders; no other pair is; nothing is paired with itself. -/
theorem C57_pairs {dim : K} {n : Nat} (hn : 0 < n) {ops : List (HOp K)} {s : St} (h : Hashed dim n ops s) (bb : Nat → BB K) (order : List Nat)
    (ho : order.Perm s.set) :
    ∃ t P, reindexQuery s (fun x => cells dim s.n (bb x)) order = some (t, P) ∧ (∀ x, (x, x) ∉ P) ∧
      (∀ x y, x ≠ y → P.count (x, y) + P.count (y, x) =
        if boxes ops x ≠ none ∧ boxes ops y ≠ none ∧ meet dim n (bb x) (bb y) then 1 else 0) ∧
      (0 < dim → ∀ x y, x ≠ y → boxes ops x ≠ none → boxes ops y ≠ none → Proper (bb x) → Proper (bb y) → (bb x).intersects (bb y) = true →
        P.count (x, y) + P.count (y, x) = 1) := by
  obtain ⟨H, F, rfl⟩ := h.ok hn
  obtain ⟨H1, a1, b1, c1, d1⟩ := clearTable_ok H
  have hp : order.Perm (clearTable s).set := by rw [a1]; exact ho
  obtain ⟨t, P, e, H2, a2, b2, c2, t2, sound, nd, once, full⟩ := rehashAll_ok (fun x => cells dim s.n (bb x)) order [] (clearTable s) H1 (by intro x; rw [b1]; exact cells_lt hn _)
    (fun h hh => hp.mem_iff.1 hh) (by simp) (hp.nodup_iff.2 H1.inv.setNodup) (by simp) (by intro i g; rw [d1]; simp)
  have listed : ∀ x, boxes ops x ≠ none ↔ ∃ g ∈ order, ((clearTable s).hd g).obj = some x := by
    intro x
    constructor
    · intro hx
      obtain ⟨g, g1, g2⟩ := F.2 x (fun hc => hx (filing_none.1 hc))
      exact ⟨g, ho.mem_iff.2 g1, (c1 g).trans g2⟩
    · rintro ⟨g, g1, g2⟩ hc
      obtain ⟨l, hl, _⟩ := F.1 g (ho.mem_iff.1 g1) x ((c1 g).symm.trans g2)
      rw [filing_none.2 hc] at hl; cases hl
  have key : ∀ x y, x ≠ y → P.count (x, y) + P.count (y, x) = if boxes ops x ≠ none ∧ boxes ops y ≠ none ∧ meet dim s.n (bb x) (bb y) then 1 else 0 := by
    intro x y hxy
    have s1 : ∀ x y, (x, y) ∈ P → boxes ops x ≠ none ∧ boxes ops y ≠ none ∧ meet dim s.n (bb x) (bb y) := by
      intro x y hm
      obtain ⟨_, h2, h3, g, h4, h5⟩ := sound x y hm
      exact ⟨(listed x).2 h3, (listed y).2 ⟨g, by simpa using h4, h5⟩, (share_iff bb x y).1 h2⟩
    have msym : meet dim s.n (bb y) (bb x) → meet dim s.n (bb x) (bb y) := fun h => (share_iff bb x y).1 (share_symm ((share_iff bb y x).2 h))
    split
    · rename_i hc
      obtain ⟨h1, h2, h3⟩ := hc
      obtain ⟨g, g1, g2⟩ := (listed x).1 h1
      obtain ⟨k, k1, k2⟩ := (listed y).1 h2
      have hgk : g ≠ k := by rintro rfl; rw [g2, Option.some.injEq] at k2; exact hxy k2
      rcases full g g1 k (Or.inr k1) hgk x y g2 k2 ((share_iff bb x y).2 h3) with hm | hm
      · rw [List.count_eq_one_of_mem nd hm, List.count_eq_zero_of_not_mem (once x y hm)]
      · rw [List.count_eq_one_of_mem nd hm, List.count_eq_zero_of_not_mem (once y x hm)]
    · rename_i hc
      rw [List.count_eq_zero_of_not_mem (fun hm => hc (s1 x y hm)), List.count_eq_zero_of_not_mem (fun hm => hc (by
        obtain ⟨p, q, r⟩ := s1 y x hm; exact ⟨q, p, msym r⟩))]
  refine ⟨t, P, e, fun x hx => (sound x x hx).1 rfl, key, ?_⟩
  intro hd x y hxy h1 h2 p1 p2 hi
  obtain ⟨i, j, k1, k2⟩ := intersects_cell hd p1 p2 hi
  rw [key x y hxy, if_pos ⟨h1, h2, i, j, i, j, k1, k2, rfl⟩]

/-- The collisions with the static index: each pair of a shape of the dynamic index (listed once in `xs`, not in the static
index) and a static shape whose cells meet is reported exactly once. -/
theorem C57_static {dim : K} {n : Nat} (hn : 0 < n) (bb : Nat → BB K) : ∀ (xs : List Nat) (s : St) (B : Nat → Option (BB K)), Hash.Ok s → Filed s (filing dim n B) → s.n = n →
    xs.Nodup → (∀ x ∈ xs, B x = none) →
    ∃ t P, collideStatic (fun x => cells dim n (bb x)) xs s = some (t, P) ∧ P.Nodup ∧
      ∀ x y, (x, y) ∈ P ↔ x ∈ xs ∧ ∃ b, B y = some b ∧ meet dim n b (bb x)
  | [], s, B, H, F, hs, _, _ => ⟨s, [], rfl, by simp, by simp⟩
  | x :: xs, s, B, H, F, hs, hnd, hB => by
    subst hs
    obtain ⟨t, o, e, H1, F1, n1, _, nd1, m1⟩ := query_ok H F (some x) (cells dim s.n (bb x))
    obtain ⟨u, P, e', nd2, m2⟩ := C57_static hn bb xs t B H1 F1 n1 (List.nodup_cons.1 hnd).2 (fun y hy => hB y (by simp [hy]))
    refine ⟨u, o.map (fun y => (x, y)) ++ P, by rw [collideStatic, e]; simp only; rw [e'], ?_, fun a b => ?_⟩
    · rw [List.nodup_append]
      refine ⟨nd1.map (fun a b e => by simpa using e), nd2, ?_⟩
      rintro ⟨a, b⟩ hab c hc rfl
      obtain ⟨y, hy, e⟩ := List.mem_map.1 hab
      rw [Prod.mk.injEq] at e
      obtain ⟨rfl, rfl⟩ := e
      exact (List.nodup_cons.1 hnd).1 ((m2 x y).1 hc).1
    · have meet_iff : ∀ y, y ∈ o ↔ ∃ b, B y = some b ∧ meet dim s.n b (bb x) := by
        intro y
        rw [m1]
        constructor
        · rintro ⟨h1, m, h2, i, h3, h4⟩
          obtain ⟨b, hb, rfl⟩ := Option.map_eq_some_iff.1 h2
          obtain ⟨i1, j1, h5, h6⟩ := (mem_cells dim s.n b i).1 h4
          obtain ⟨i2, j2, h7, h8⟩ := (mem_cells dim s.n _ i).1 h3
          exact ⟨b, hb, i1, j1, i2, j2, h5, h7, h6.trans h8.symm⟩
        · rintro ⟨b, hb, i1, j1, i2, j2, h5, h7, h6⟩
          refine ⟨?_, cells dim s.n b, by simp [filing, hb], hashFunc i2 j2 s.n, (mem_cells ..).2 ⟨i2, j2, h7, rfl⟩, (mem_cells ..).2 ⟨i1, j1, h5, h6⟩⟩
          rintro e
          rw [Option.some.injEq] at e
          subst e
          rw [hB y (by simp)] at hb; cases hb
      rw [List.mem_append, m2, List.mem_map]
      constructor
      · rintro (⟨y, hy, e⟩ | ⟨h1, h2⟩)
        · rw [Prod.mk.injEq] at e
          obtain ⟨rfl, rfl⟩ := e
          exact ⟨by simp, (meet_iff y).1 hy⟩
        · exact ⟨by simp [h1], h2⟩
      · rintro ⟨h1, h2⟩
        rcases List.mem_cons.1 h1 with rfl | h1
        · exact Or.inl ⟨b, (meet_iff b).2 h2, rfl⟩
        · exact Or.inr ⟨h1, h2⟩

/-! ### C57: what the code gets wrong -/

/-- `Reindex` empties the table and never files the shapes again: afterwards no query reports anything although the index
still lists every shape. -/
theorem C57_reindex_loses {s : St} (H : Hash.Ok s) (obj : Option Nat) (l : List Nat) :
    ∃ t, Hash.query (reindex s) obj l = some (t, []) ∧ (reindex s).set = s.set := by
  obtain ⟨_, a1, _, _, d1⟩ := clearTable_ok H
  have key : ∀ l, queryCells obj l (clearTable s) = some (clearTable s, []) := by
    intro l
    induction l with
    | nil => rfl
    | cons i l ih =>
      rw [queryCells, d1 i]
      simp only [queryCell, List.length_nil, d1 i, scan]
      rw [ih]
      rfl
  refine ⟨_, by unfold Hash.query reindex; rw [key l], a1⟩

/-- Shapes 5 and 6 both in the cell 0. -/
def nestedHash : St := Hash.insert (Hash.insert (Hash.empty 7) 5 0 [0]) 6 1 [0]

/-- A query made by the callback of a query skips every shape the outer query has reported already: here the outer one has
reported 5 and 6, and the inner one, for the same cell, reports nothing; made afterwards it reports both. -/
theorem C57_nested_misses : Hash.Ok nestedHash ∧
    ((queryCells none [0] nestedHash).bind fun r => (Hash.query r.1 none [0]).map fun q => (r.2, q.2)) = some ([6, 5], []) ∧
    ((Hash.query nestedHash none [0]).bind fun r => (Hash.query r.1 none [0]).map fun q => (r.2, q.2)) = some ([6, 5], [6, 5]) := by
  refine ⟨?_, by decide +kernel, by decide +kernel⟩
  have F0 : Filed (Hash.empty 7) (fun _ => none) := ⟨by simp [Hash.empty], by simp⟩
  obtain ⟨H1, n1, _, _, F1⟩ := insert_ok (x := 5) (h := 0) (l := [0]) (Ok.empty 7) F0 rfl (Or.inr ⟨by simp [Hash.empty], by simp [Hash.empty]⟩) (by simp [Hash.empty])
  exact (insert_ok (x := 6) (h := 1) (l := [0]) H1 F1 (by simp) (CanGet.of_ret H1 (by decide +kernel)) (by rw [n1]; simp [Hash.empty])).1

/-! ### C58 -/

/-- A handle in the pool is in no cell and not in the handle set, and is there once; the counter of every handle is the
number of references to it. -/
theorem C58_pool {dim : K} {n : Nat} (hn : 0 < n) {ops : List (HOp K)} {s : St} (h : Hashed dim n ops s) :
    s.pool.Nodup ∧ (∀ g ∈ s.pool, g ∉ s.set ∧ ∀ i, g ∉ s.table i) ∧
      ∀ g, (s.hd g).ret = (if g ∈ s.set then 1 else 0) + (((Finset.range n).filter fun i => g ∈ s.table i).card : Int) := by
  obtain ⟨H, F, rfl⟩ := h.ok hn
  refine ⟨H.inv.poolNodup, fun g hg => ⟨(H.inv.poolFree g hg).1, (H.inv.poolFree g hg).2.1⟩, fun g => ?_⟩
  have := H.inv.count g
  rw [this]; unfold refs; push_cast; simp

/-- Hence a handle taken from the pool is referred to by nothing, and a handle in use holds one and the same shape until it
is removed from the index. -/
theorem C58_taken {dim : K} {n : Nat} (hn : 0 < n) {ops : List (HOp K)} {s : St} (h : Hashed dim n ops s) {x g : Nat} (bb : BB K) (hx : boxes ops x = none) (hg : CanGet s g) :
    (∀ k ∈ s.set, ((Hash.insert s x g (cells dim s.n bb)).hd k).obj = (s.hd k).obj) ∧ g ∉ s.set ∧ ∀ i, g ∉ s.table i := by
  obtain ⟨H, F, rfl⟩ := h.ok hn
  obtain ⟨f1, f2⟩ := hg.free H.inv
  refine ⟨fun k hk => ?_, f1, f2⟩
  have hf := (F.find_none_iff x).2 (filing_none.2 hx)
  have I1 := H.inv.enlist (x := x) f1 f2 rfl (find_none hf)
  obtain ⟨I2, a2, b2, c2, p2, d2, e2⟩ := hashHandle_ok (h := g) (cells dim s.n bb) _ I1 (by simp) (cells_lt hn bb)
  unfold Hash.insert
  rw [hf]
  simp only
  rw [(d2 k).1]
  show ((s.setH g fun _ => ⟨some x, 1, 0⟩).hd k).obj = _
  rw [setH_hd, if_neg (by rintro rfl; exact f1 hk)]

/-! ### C65 -/

/-- The handles used for the shapes listed come from the pool. -/
def Gets (cells : Nat → List Nat) : List (Nat × Nat) → St → Prop
  | [], _ => True
  | p :: l, s => CanGet s p.2 ∧ Gets cells l (Hash.insert s p.1 p.2 (cells p.1))

theorem foldl_insert_ok (cells : Nat → List Nat) : ∀ (l : List (Nat × Nat)) (s : St) (C : Nat → Option (List Nat)), Hash.Ok s → Filed s C → (∀ x, ∀ i ∈ cells x, i < s.n) →
    (l.map (·.1)).Nodup → (∀ p ∈ l, C p.1 = none) → Gets cells l s →
    Hash.Ok (l.foldl (fun s p => Hash.insert s p.1 p.2 (cells p.1)) s) ∧
      Filed (l.foldl (fun s p => Hash.insert s p.1 p.2 (cells p.1)) s) (fun x => if x ∈ l.map (·.1) then some (cells x) else C x)
  | [], s, C, H, F, _, _, _, _ => ⟨H, by simpa using F⟩
  | p :: l, s, C, H, F, hc, hn, hC, hg => by
    rw [List.map_cons, List.nodup_cons] at hn
    obtain ⟨H1, n1, _, _, F1⟩ := insert_ok (l := cells p.1) H F (hC p (by simp)) hg.1 (hc p.1)
    obtain ⟨H2, F2⟩ := foldl_insert_ok cells l _ _ H1 F1 (by rw [n1]; exact hc) hn.2 (by
      intro q hq
      rw [if_neg]
      · exact hC q (by simp [hq])
      · intro e; exact hn.1 (List.mem_map.2 ⟨q, hq, e⟩)) hg.2
    refine ⟨H2, ?_⟩
    rw [List.foldl_cons]
    convert F2 using 1
    funext x
    rw [List.map_cons]
    simp only [List.mem_cons]
    by_cases h1 : x ∈ l.map (·.1)
    · rw [if_pos (Or.inr h1), if_pos h1]
    · rw [if_neg h1]
      by_cases h2 : x = p.1
      · rw [if_pos (Or.inl h2), if_pos h2, h2]
      · rw [if_neg (by tauto), if_neg h2]

/-- An index made by `UseSpatialHash` from a list of distinct shapes lists exactly these, each once. -/
theorem C65_rebuild (cells : Nat → List Nat) {n : Nat} (hc : ∀ x, ∀ i ∈ cells x, i < n) (l0 : List (Nat × Nat)) (hn : (l0.map (·.1)).Nodup) (hg : Gets cells l0 (Hash.empty n)) :
    (each (rebuild n cells l0)).Perm (l0.map (·.1)) ∧ Hash.count (rebuild n cells l0) = l0.length ∧ Filed (rebuild n cells l0) (fun x => if x ∈ l0.map (·.1) then some (cells x) else none) := by
  obtain ⟨H, F⟩ := foldl_insert_ok cells l0 (Hash.empty n) (fun _ => none) (Ok.empty n) ⟨by simp [Hash.empty], by simp⟩ hc hn (by simp) hg
  have hnd : (each (rebuild n cells l0)).Nodup := by
    have key : ∀ l : List Nat, l.Nodup → (∀ g ∈ l, g ∈ (rebuild n cells l0).set) → (l.filterMap fun h => ((rebuild n cells l0).hd h).obj).Nodup := by
      intro l
      induction l with
      | nil => intro _ _; simp
      | cons a l ih =>
        intro hl hs
        rw [List.nodup_cons] at hl
        rw [List.filterMap_cons]
        have := ih hl.2 (fun g hg => hs g (by simp [hg]))
        split
        · exact this
        · rename_i x hx
          rw [List.nodup_cons]
          refine ⟨fun hm => ?_, this⟩
          obtain ⟨g, g1, g2⟩ := List.mem_filterMap.1 hm
          have := H.inv.inj a (hs a (by simp)) g (hs g (by simp [g1])) (hx.trans g2.symm)
          exact hl.1 (this ▸ g1)
    exact key _ H.inv.setNodup (fun g hg => hg)
  have hp : (each (rebuild n cells l0)).Perm (l0.map (·.1)) := by
    rw [List.perm_ext_iff_of_nodup hnd hn]
    intro x
    unfold each
    rw [List.mem_filterMap]
    constructor
    · rintro ⟨h, h1, h2⟩
      obtain ⟨m, hm, _⟩ := F.1 h h1 x h2
      simp only at hm
      split at hm
      · assumption
      · cases hm
    · intro hx
      obtain ⟨h, h1, h2⟩ := F.2 x (by simp only; rw [if_pos hx]; simp)
      exact ⟨h, h1, h2⟩
  refine ⟨hp, ?_, F⟩
  have hl := hp.length_eq
  rw [List.length_map] at hl
  rw [← hl]
  have key : ∀ l : List Nat, (∀ g ∈ l, g ∈ (rebuild n cells l0).set) → (l.filterMap fun h => ((rebuild n cells l0).hd h).obj).length = l.length := by
    intro l
    induction l with
    | nil => intro _; rfl
    | cons a l ih =>
      intro hs
      obtain ⟨x, hx⟩ := Option.ne_none_iff_exists'.1 (H.inv.objs a (hs a (by simp)))
      have hx' : ((rebuild n cells l0).hd a).obj = some x := hx
      rw [List.filterMap_cons, hx']
      simp only [List.length_cons]
      rw [ih (fun g hg => hs g (by simp [hg]))]
  exact (key _ (fun g hg => hg)).symm

/-- `UseSpatialHash` on a space with trees: whatever was done with the indexes before, the new static and dynamic indexes
list exactly the shapes the old ones did, each once. `ld` and `ls` are the shapes in the order the old indexes walk them,
with the handles their pools return. -/
theorem C65_useSpatialHash {dim : K} {n : Nat} (hn : 0 < n) (bb : Nat → BB K) (ops : List (BBTree.Op K)) (hops : LegalRun emptyIndex ops) {m : Index K} (hm : indexRun emptyIndex ops = some m) :
    ∃ s, BBTree.run BBTree.init ops = some s ∧
    ∀ ld ls : List (Nat × Nat), (ld.map (·.1)).Perm ((BBTree.leavesOf s.dyn).map (·.id)) → (ls.map (·.1)).Perm ((BBTree.leavesOf s.stat).map (·.id)) →
      Gets (fun x => cells dim n (bb x)) ld (Hash.empty n) → Gets (fun x => cells dim n (bb x)) ls (Hash.empty n) →
      let d := rebuild n (fun x => cells dim n (bb x)) ld
      let t := rebuild n (fun x => cells dim n (bb x)) ls
      (each d).Nodup ∧ (each t).Nodup ∧ (∀ x, x ∈ each d ↔ ∃ b, m x = some (true, b)) ∧ (∀ x, x ∈ each t ↔ ∃ b, m x = some (false, b)) ∧
      Hash.count d = (BBTree.leavesOf s.dyn).length ∧ Hash.count t = (BBTree.leavesOf s.stat).length := by
  obtain ⟨s, hs, h1, h2, h3⟩ := (C08_contents ops hops).2 m hm
  refine ⟨s, hs, fun ld ls pd ps gd gs => ?_⟩
  rw [List.map_append, List.nodup_append] at h3
  obtain ⟨ed, cd, _⟩ := C65_rebuild (fun x => cells dim n (bb x)) (fun x => cells_lt hn _) ld (pd.nodup_iff.2 h3.1) gd
  obtain ⟨es, cs, _⟩ := C65_rebuild (fun x => cells dim n (bb x)) (fun x => cells_lt hn _) ls (ps.nodup_iff.2 h3.2.1) gs
  refine ⟨(ed.trans pd).nodup_iff.2 h3.1, (es.trans ps).nodup_iff.2 h3.2.1, fun x => (ed.trans pd).mem_iff.trans (h1 x), fun x => (es.trans ps).mem_iff.trans (h2 x), ?_, ?_⟩
  · rw [cd, ← List.length_map (f := (·.1)), pd.length_eq, List.length_map]
  · rw [cs, ← List.length_map (f := (·.1)), ps.length_eq, List.length_map]

/-! ### Examples -/

section examples

/-- A history over cells of size 1 in a table of 7 places. -/
def hashOps : List (HOp ℚ) :=
  [.insert 5 0 ⟨0, 0, 3/2, 1/2⟩, .insert 6 1 ⟨1, -1/2, 2, 1/4⟩, .insert 7 2 ⟨9, 9, 10, 10⟩, .query (some 5) ⟨1, 0, 1, 0⟩, .remove 7, .move 6 3 ⟨-1, -1, -1/2, -1/2⟩]

def HOp.fine (B : Nat → Option (BB ℚ)) (s : St) : HOp ℚ → Bool
  | .insert x h _ => (B x).isNone && decide ((s.hd h).ret = 0)
  | .remove _ => true
  | .move x h _ => decide (((Hash.remove s x).hd h).ret = 0)
  | .query _ _ => true
  | .update _ order => decide (order.Perm s.set)

/-- Makes the calls after checking them. -/
def follow (dim : ℚ) : List (HOp ℚ) → List (HOp ℚ) → St → Option St
  | [], _, s => some s
  | o :: l, done, s => if o.fine (boxes done) s = true then (match o.run dim s with
    | none => none
    | some t => follow dim l (done ++ [o]) t) else none

theorem follow_ok {dim : ℚ} {n : Nat} (hn : 0 < n) : ∀ (l done : List (HOp ℚ)) (s t : St), Hashed dim n done s → follow dim l done s = some t → Hashed dim n (done ++ l) t
  | [], done, s, t, h, e => by
    simp only [follow, Option.some.injEq] at e
    subst e; simpa using h
  | o :: l, done, s, t, h, e => by
    unfold follow at e
    split at e
    · rename_i hf
      rcases hr : o.run dim s with _ | u
      · simp only [hr] at e; cases e
      · simp only [hr] at e
        obtain ⟨H, _, _⟩ := h.ok hn
        have ho : o.Ok (boxes done) s := by
          cases o with
          | insert x g b =>
            simp only [HOp.fine, Bool.and_eq_true, decide_eq_true_eq, Option.isNone_iff_eq_none] at hf
            exact ⟨hf.1, CanGet.of_ret H hf.2⟩
          | remove x => trivial
          | move x g b =>
            simp only [HOp.fine, decide_eq_true_eq] at hf
            intro _
            obtain ⟨_, F, _⟩ := h.ok hn
            exact CanGet.of_ret (remove_ok H F x).1 hf
          | query obj b => trivial
          | update b order =>
            have : order.Perm s.set := of_decide_eq_true hf
            exact this
        have := follow_ok hn l (done ++ [o]) u t (.snoc h ho hr) e
        simpa using this
    · cases e

def hashEnd : St := (follow 1 hashOps [] (Hash.empty 7)).getD (Hash.empty 7)

theorem hashOps_reached : Hashed (1 : ℚ) 7 hashOps hashEnd := by
  have hs : (follow 1 hashOps [] (Hash.empty 7)).isSome = true := by decide +kernel
  obtain ⟨t, ht⟩ := Option.isSome_iff_exists.1 hs
  have : hashEnd = t := by unfold hashEnd; rw [ht]; rfl
  rw [this]
  simpa using follow_ok (by norm_num) hashOps [] _ t .nil ht

/-- For C57 and C58: the shape 7 was removed and 6 moved away from 5 and handle 3 is in use. -/
example : Hashed (1 : ℚ) 7 hashOps hashEnd ∧ boxes hashOps 5 = some ⟨0, 0, 3/2, 1/2⟩ ∧ boxes hashOps 6 = some ⟨-1, -1, -1/2, -1/2⟩ ∧ boxes hashOps 7 = none ∧
    each hashEnd = [6, 5] ∧ CanGet hashEnd 9 := by
  refine ⟨hashOps_reached, by decide +kernel, by decide +kernel, by decide +kernel, by decide +kernel, ?_⟩
  exact CanGet.of_ret (hashOps_reached.ok (by norm_num)).1 (by decide +kernel)

/-- A query whose box meets that of 5 only, and a step in which 5 and 6 meet. -/
example : (⟨0, 0, 3/2, 1/2⟩ : BB ℚ).intersects ⟨1, 0, 1, 0⟩ = true ∧ Proper (⟨1, 0, 1, 0⟩ : BB ℚ) ∧
    ((Hash.query hashEnd none (cells (1 : ℚ) 7 ⟨1, 0, 1, 0⟩)).map (·.2)) = some [5] ∧
    [3, 0].Perm hashEnd.set ∧
    ((reindexQuery hashEnd (fun x => cells (1 : ℚ) 7 (if x = 5 then ⟨0, 0, 3/2, 1/2⟩ else ⟨1, 0, 3, 0⟩)) [3, 0]).map (·.2)) = some [(5, 6)] := by
  refine ⟨by decide +kernel, ⟨by norm_num, by norm_num⟩, by decide +kernel, by decide +kernel, by decide +kernel⟩

/-- For the static index. -/
example : Hash.Ok hashEnd ∧ Filed hashEnd (filing (1 : ℚ) 7 (boxes hashOps)) ∧ [1, 2].Nodup ∧ (∀ x ∈ [1, 2], boxes hashOps x = none) ∧
    ((collideStatic (fun x => cells (1 : ℚ) 7 (if x = 1 then ⟨0, 0, 3/2, 1/2⟩ else ⟨5, 5, 5, 5⟩)) [1, 2] hashEnd).map (·.2)) = some [(1, 5)] := by
  obtain ⟨h1, h2, _⟩ := hashOps_reached.ok (by norm_num)
  exact ⟨h1, h2, by decide, by decide +kernel, by decide +kernel⟩

/-- For C65, continuing the example of C08. -/
example : LegalRun emptyIndex exOps ∧ indexRun emptyIndex exOps = some exIndex ∧
    Gets (fun x => cells (1 : ℚ) 7 (exBB x)) [(1, 0), (0, 1)] (Hash.empty 7) := by
  refine ⟨exOps_legal, exOps_index, ?_⟩
  have F0 : Filed (Hash.empty 7) (fun _ => none) := ⟨by simp [Hash.empty], by simp⟩
  have g0 := CanGet.of_ret (h := 0) (Ok.empty 7) (by decide +kernel)
  obtain ⟨H1, n1, _, _, F1⟩ := insert_ok (x := 1) (h := 0) (l := cells (1 : ℚ) 7 (exBB 1)) (Ok.empty 7) F0 rfl g0 (cells_lt (by norm_num [Hash.empty]) _)
  exact ⟨g0, CanGet.of_ret H1 (by decide +kernel), trivial⟩

end examples

end Cm
