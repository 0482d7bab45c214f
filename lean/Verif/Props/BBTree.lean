import Verif.Proofs.BBTreeRun
/-! # C06 to C12, C67: the bounding box trees -/
set_option linter.unusedSectionVars false
set_option linter.unusedTactic false
set_option linter.unreachableTactic false
namespace Cm
open Spec BBTree
section
variable {K : Type} [Zero K] [One K] [Add K] [Sub K] [Mul K] [Div K] [Neg K] [NatCast K] [LinearOrder K] [Spec.Rounded K]

namespace Spec
/-- Two boxes share a point. -/
def Overlap (a b : BB K) : Prop := ∃ p : V2 K, InBox a p ∧ InBox b p
/-- The smallest box around a family of boxes. -/
def IsHull (h : BB K) (bs : List (BB K)) : Prop :=
  (∀ b ∈ bs, Incl b h) ∧ ∀ h' : BB K, (∀ b ∈ bs, Incl b h') → Incl h h'
end Spec

theorem overlap_intersects {a b : BB K} (h : Overlap a b) : a.intersects b = true := by
  obtain ⟨p, ⟨h1, h2, h3, h4⟩, g1, g2, g3, g4⟩ := h
  rw [BB.intersects_iff]
  exact ⟨le_trans h1 g2, le_trans g1 h2, le_trans h3 g4, le_trans g3 h4⟩

theorem intersects_overlap {a b : BB K} (ha : Proper a) (hb : Proper b) (h : a.intersects b = true) : Overlap a b := by
  rw [BB.intersects_iff] at h
  obtain ⟨h1, h2, h3, h4⟩ := h
  refine ⟨⟨max a.L b.L, max a.B b.B⟩, ⟨le_max_left _ _, max_le ha.1 h2, le_max_left _ _, max_le ha.2 h4⟩,
    ⟨le_max_right _ _, max_le h1 hb.1, le_max_right _ _, max_le h3 hb.2⟩⟩

/-! ## C06 -/

/-- After any history, the next collision query calls back exactly once for every two dynamic shapes with overlapping
boxes, and for every dynamic and static shape with overlapping boxes. -/
theorem C06_finds_every_pair (ops : List (Op K)) (m : Index K) (hops : LegalRun emptyIndex ops)
    (hm : indexRun emptyIndex ops = some m) (order : List Nat) (bbf : Nat → BB K) (vel : Nat → V2 K)
    (hq : Legal m (.reindexQuery order bbf vel)) :
    ∃ s, run init ops = some s ∧
    (∀ i j, i ≠ j → (∃ b, m i = some (true, b)) → (∃ b, m j = some (true, b)) → Overlap (bbf i) (bbf j) →
      (reindexQuery s order bbf vel).2.count (i, j) + (reindexQuery s order bbf vel).2.count (j, i) = 1) ∧
    (∀ i j b, (∃ b, m i = some (true, b)) → m j = some (false, b) → Overlap (bbf i) b →
      (reindexQuery s order bbf vel).2.count (i, j) + (reindexQuery s order bbf vel).2.count (j, i) = 1) := by
  obtain ⟨s, hs, hr⟩ := (run_refines ops _ _ rel_init hops).1 m hm
  obtain ⟨hp, _, hor⟩ := hq
  obtain ⟨a1, a2, a3, a4, a5, a6, a7⟩ := reindexQuery_spec hr.ok order bbf vel hp
    (fun i hi => (hor i).2 ((hr.dyn_iff i).1 hi))
  have find : ∀ i, (∃ b, m i = some (true, b)) → ∃ l ∈ leavesOf (reindexQuery s order bbf vel).1.dyn, l.id = i :=
    fun i hi => mem_ids.1 ((a4 i).2 ((hr.dyn_iff i).2 hi))
  refine ⟨s, hs, ?_, ?_⟩
  · intro i j hne hi hj ho
    obtain ⟨u, hu, rfl⟩ := find i hi
    obtain ⟨v, hv, rfl⟩ := find j hj
    rw [a5 u hu v hv hne]
    unfold meet
    rw [if_pos (intersects_of_contains (a3 u hu) (a3 v hv) (overlap_intersects ho))]
  · intro i j b hi hj ho
    obtain ⟨u, hu, rfl⟩ := find i hi
    obtain ⟨t, ht, rfl, hc⟩ := hr.s1 j b hj
    rw [Nat.add_comm, a6 t ht u hu, meet_symm]
    unfold meet
    rw [if_pos (intersects_of_contains (a3 u hu) hc (overlap_intersects ho))]

/-! ## C07 -/

/-- After any history, no unordered pair is reported twice, no shape with itself, no two static shapes, and nothing
outside the indexes. -/
theorem C07_no_pair_twice (ops : List (Op K)) (m : Index K) (hops : LegalRun emptyIndex ops)
    (hm : indexRun emptyIndex ops = some m) (order : List Nat) (bbf : Nat → BB K) (vel : Nat → V2 K)
    (hq : Legal m (.reindexQuery order bbf vel)) :
    ∃ s, run init ops = some s ∧
    (∀ i j, (reindexQuery s order bbf vel).2.count (i, j) + (reindexQuery s order bbf vel).2.count (j, i) ≤ 1) ∧
    (∀ i j, (i, j) ∈ (reindexQuery s order bbf vel).2 → i ≠ j ∧ (m i).isSome ∧ (m j).isSome ∧
      ((∃ b, m i = some (true, b)) ∨ ∃ b, m j = some (true, b))) := by
  obtain ⟨s, hs, hr⟩ := (run_refines ops _ _ rel_init hops).1 m hm
  obtain ⟨hp, _, hor⟩ := hq
  obtain ⟨a1, a2, a3, a4, a5, a6, a7⟩ := reindexQuery_spec hr.ok order bbf vel hp
    (fun i hi => (hor i).2 ((hr.dyn_iff i).1 hi))
  have le1 : ∀ u v : Leaf K, meet u v ≤ 1 := by intro u v; unfold meet; split <;> omega
  have some_of : ∀ i, i ∈ ids (leavesOf s.dyn ++ leavesOf s.stat) → (m i).isSome = true := by
    intro i hi
    rw [ids_append, List.mem_append] at hi
    rcases hi with hi | hi
    · obtain ⟨b, hb⟩ := (hr.dyn_iff i).1 hi; simp [hb]
    · obtain ⟨b, hb⟩ := (hr.stat_iff i).1 hi; simp [hb]
  refine ⟨s, hs, ?_, ?_⟩
  · intro i j
    by_cases hex : (i, j) ∈ (reindexQuery s order bbf vel).2 ∨ (j, i) ∈ (reindexQuery s order bbf vel).2
    · have hfacts : i ≠ j ∧ i ∈ ids (leavesOf s.dyn ++ leavesOf s.stat) ∧ j ∈ ids (leavesOf s.dyn ++ leavesOf s.stat) ∧
          (i ∈ ids (leavesOf s.dyn) ∨ j ∈ ids (leavesOf s.dyn)) := by
        rcases hex with h | h
        · exact a7 _ h
        · obtain ⟨h1, h2, h3, h4⟩ := a7 _ h
          exact ⟨Ne.symm h1, h3, h2, h4.symm⟩
      obtain ⟨hne, hi, hj, hd⟩ := hfacts
      have dynleaf : ∀ i, i ∈ ids (leavesOf s.dyn) → ∃ l ∈ leavesOf (reindexQuery s order bbf vel).1.dyn, l.id = i :=
        fun i h => mem_ids.1 ((a4 i).2 h)
      rw [ids_append, List.mem_append] at hi hj
      rcases hd with hd | hd
      · obtain ⟨u, hu, rfl⟩ := dynleaf i hd
        rcases hj with hj | hj
        · obtain ⟨v, hv, rfl⟩ := dynleaf j hj
          rw [a5 u hu v hv hne]; exact le1 u v
        · obtain ⟨t, ht, rfl⟩ := mem_ids.1 hj
          rw [Nat.add_comm, a6 t ht u hu]; exact le1 t u
      · obtain ⟨v, hv, rfl⟩ := dynleaf j hd
        rcases hi with hi | hi
        · obtain ⟨u, hu, rfl⟩ := dynleaf i hi
          rw [a5 u hu v hv hne]; exact le1 u v
        · obtain ⟨t, ht, rfl⟩ := mem_ids.1 hi
          rw [a6 t ht v hv]; exact le1 t v
    · rw [not_or] at hex
      rw [List.count_eq_zero.2 hex.1, List.count_eq_zero.2 hex.2]; omega
  · intro i j h
    obtain ⟨h1, h2, h3, h4⟩ := a7 _ h
    refine ⟨h1, some_of i h2, some_of j h3, ?_⟩
    rcases h4 with h4 | h4
    · exact Or.inl ((hr.dyn_iff i).1 h4)
    · exact Or.inr ((hr.dyn_iff j).1 h4)

/-! ## C08 -/

/-- The operations crash exactly on misuse, and otherwise the leaves of the trees are exactly the shapes inserted
and not removed, each once. -/
theorem C08_contents (ops : List (Op K)) (hops : LegalRun emptyIndex ops) :
    (indexRun emptyIndex ops = none ↔ run init ops = none) ∧
    (∀ m, indexRun emptyIndex ops = some m → ∃ s, run init ops = some s ∧
      (∀ i, i ∈ (leavesOf s.dyn).map (·.id) ↔ ∃ b, m i = some (true, b)) ∧
      (∀ i, i ∈ (leavesOf s.stat).map (·.id) ↔ ∃ b, m i = some (false, b)) ∧
      ((leavesOf s.dyn ++ leavesOf s.stat).map (·.id)).Nodup) := by
  have k := run_refines ops _ _ (rel_init (K := K)) hops
  refine ⟨⟨k.2, ?_⟩, ?_⟩
  · intro h
    cases hm : indexRun (emptyIndex : Index K) ops with
    | none => rfl
    | some m =>
      obtain ⟨s, hs, _⟩ := k.1 m hm
      rw [h] at hs; cases hs
  · intro m hm
    obtain ⟨s, hs, hr⟩ := k.1 m hm
    exact ⟨s, hs, hr.dyn_iff, hr.stat_iff, hr.ok.inv.nd⟩

/-! ## C09 -/

theorem queryRoot_eq (q : BB K) (t : Option (BBTree.Tree K)) (h : TightO t) :
    queryRoot q t = ids ((leavesOf t).filter (fun l => l.bb.intersects q)) := by
  cases t with
  | none => rfl
  | some t => exact query_eq q t (h t rfl)

/-- The tree query calls back exactly for the leaves whose stored box meets the query box, each once. -/
theorem C09_tree_query (ops : List (Op K)) (m : Index K) (hops : LegalRun emptyIndex ops)
    (hm : indexRun emptyIndex ops = some m) (q : BB K) :
    ∃ s, run init ops = some s ∧
    (queryRoot q s.dyn).Nodup ∧ (queryRoot q s.stat).Nodup ∧
    (∀ i, i ∈ queryRoot q s.dyn ↔ ∃ l ∈ leavesOf s.dyn, l.id = i ∧ l.bb.intersects q = true) ∧
    (∀ i, i ∈ queryRoot q s.stat ↔ ∃ l ∈ leavesOf s.stat, l.id = i ∧ l.bb.intersects q = true) := by
  obtain ⟨s, hs, hr⟩ := (run_refines ops _ _ rel_init hops).1 m hm
  refine ⟨s, hs, ?_, ?_, ?_, ?_⟩
  · rw [queryRoot_eq q _ hr.ok.td]
    exact (List.Sublist.map _ List.filter_sublist).nodup (nodup_dyn hr.ok.okm)
  · rw [queryRoot_eq q _ hr.ok.ts]
    exact (List.Sublist.map _ List.filter_sublist).nodup (nodup_stat hr.ok.okm)
  · intro i
    rw [queryRoot_eq q _ hr.ok.td, mem_ids]
    constructor
    · rintro ⟨l, hl, rfl⟩; exact ⟨l, (List.mem_filter.1 hl).1, rfl, (List.mem_filter.1 hl).2⟩
    · rintro ⟨l, hl, rfl, h⟩; exact ⟨l, List.mem_filter.2 ⟨hl, h⟩, rfl⟩
  · intro i
    rw [queryRoot_eq q _ hr.ok.ts, mem_ids]
    constructor
    · rintro ⟨l, hl, rfl⟩; exact ⟨l, (List.mem_filter.1 hl).1, rfl, (List.mem_filter.1 hl).2⟩
    · rintro ⟨l, hl, rfl, h⟩; exact ⟨l, List.mem_filter.2 ⟨hl, h⟩, rfl⟩

theorem bbquery_rel {m : Index K} {s : State K} (hr : Rel m s) (q : BB K) (filter : ShapeFilter) (cur : Nat → BB K)
    (flt : Nat → ShapeFilter) (hcur : ∀ i k b, m i = some (k, b) → cur i = b) :
    (spaceBBQuery s q filter cur flt).Nodup ∧
    ∀ i, i ∈ spaceBBQuery s q filter cur flt ↔
      (m i).isSome ∧ (flt i).reject filter = false ∧ (cur i).intersects q = true := by
  refine ⟨?_, ?_⟩
  · unfold spaceBBQuery
    dsimp only
    rw [← List.filter_append, queryRoot_eq q _ hr.ok.td, queryRoot_eq q _ hr.ok.ts, ← ids_append]
    apply List.Sublist.nodup List.filter_sublist
    have : (ids (leavesOf s.stat ++ leavesOf s.dyn)).Nodup :=
      ((List.perm_append_comm.map _).nodup_iff).2 hr.ok.inv.nd
    exact (List.Sublist.map _ (List.Sublist.append List.filter_sublist List.filter_sublist)).nodup this
  · intro i
    unfold spaceBBQuery
    dsimp only
    rw [← List.filter_append, List.mem_filter, List.mem_append, queryRoot_eq q _ hr.ok.td, queryRoot_eq q _ hr.ok.ts]
    simp only [Bool.and_eq_true, Bool.not_eq_true']
    constructor
    · rintro ⟨hmem, h1, h2⟩
      refine ⟨?_, h1, h2⟩
      rcases hmem with hmem | hmem
      · obtain ⟨l, hl, rfl⟩ := mem_ids.1 hmem
        obtain ⟨b, hb⟩ := hr.s2 l (List.mem_filter.1 hl).1
        simp [hb]
      · obtain ⟨l, hl, rfl⟩ := mem_ids.1 hmem
        obtain ⟨b, hb⟩ := hr.d2 l (List.mem_filter.1 hl).1
        simp [hb]
    · rintro ⟨h0, h1, h2⟩
      refine ⟨?_, h1, h2⟩
      obtain ⟨⟨k, b⟩, hb⟩ := Option.isSome_iff_exists.1 h0
      rw [hcur i k b hb] at h2
      cases k with
      | true =>
        right
        obtain ⟨l, hl, e, hc⟩ := hr.d1 i b hb
        exact mem_ids.2 ⟨l, List.mem_filter.2 ⟨hl, intersects_of_contains hc (contains_refl q) h2⟩, e⟩
      | false =>
        left
        obtain ⟨l, hl, e, hc⟩ := hr.s1 i b hb
        exact mem_ids.2 ⟨l, List.mem_filter.2 ⟨hl, intersects_of_contains hc (contains_refl q) h2⟩, e⟩

/-- `Space.BBQuery` reports, exactly once, each indexed shape that passes the filter and whose own box meets the query
box, provided shapes still have the box they were last indexed with. -/
theorem C09_space_bbquery (ops : List (Op K)) (m : Index K) (hops : LegalRun emptyIndex ops)
    (hm : indexRun emptyIndex ops = some m) (q : BB K) (filter : ShapeFilter) (cur : Nat → BB K)
    (flt : Nat → ShapeFilter) (hcur : ∀ i k b, m i = some (k, b) → cur i = b) :
    ∃ s, run init ops = some s ∧ (spaceBBQuery s q filter cur flt).Nodup ∧
    ∀ i, i ∈ spaceBBQuery s q filter cur flt ↔
      (m i).isSome ∧ (flt i).reject filter = false ∧ (cur i).intersects q = true := by
  obtain ⟨s, hs, hr⟩ := (run_refines ops _ _ rel_init hops).1 m hm
  exact ⟨s, hs, bbquery_rel hr q filter cur flt hcur⟩

/-! ## C10 -/

namespace Spec
/-- `Below t t'`: `t'` is a node of the tree `t`. -/
inductive Below : BBTree.Tree K → BBTree.Tree K → Prop
  | refl (t) : Below t t
  | left {bb a b t'} : Below a t' → Below (.node bb a b) t'
  | right {bb a b t'} : Below b t' → Below (.node bb a b) t'
end Spec

theorem tight_hull : ∀ t : BBTree.Tree K, Tight t → IsHull t.bb (t.leaves.map (·.bb))
  | .leaf l, _ => by
    constructor
    · intro b hb; simp [BBTree.Tree.leaves] at hb; subst hb; exact ⟨le_refl _, le_refl _, le_refl _, le_refl _⟩
    · intro h' hh; exact hh l.bb (by simp [BBTree.Tree.leaves])
  | .node bb a b, ht => by
    obtain ⟨ha1, ha2⟩ := tight_hull a ht.2.1
    obtain ⟨hb1, hb2⟩ := tight_hull b ht.2.2
    constructor
    · intro c hc
      obtain ⟨l, hl, rfl⟩ := List.mem_map.1 hc
      exact (BB.contains_iff _ _).1 (bb_contains_leaf (.node bb a b) ht l hl)
    · intro h' hh
      have h1 := ha2 h' (fun c hc => hh c (by simp only [BBTree.Tree.leaves, List.map_append]; exact List.mem_append_left _ hc))
      have h2 := hb2 h' (fun c hc => hh c (by simp only [BBTree.Tree.leaves, List.map_append]; exact List.mem_append_right _ hc))
      change Incl bb h'
      rw [ht.1]
      exact ⟨le_min h1.1 h2.1, max_le h1.2.1 h2.2.1, le_min h1.2.2.1 h2.2.2.1, max_le h1.2.2.2 h2.2.2.2⟩

theorem tight_below {t t' : BBTree.Tree K} (h : Below t t') (ht : Tight t) : Tight t' := by
  induction h with
  | refl => exact ht
  | left _ ih => exact ih ht.2.1
  | right _ ih => exact ih ht.2.2

/-- After any history every node's box is the smallest box around the leaf boxes below it, and each shape's stored box
contains the box it was last indexed with. -/
theorem C10_tight_boxes (ops : List (Op K)) (m : Index K) (hops : LegalRun emptyIndex ops)
    (hm : indexRun emptyIndex ops = some m) :
    ∃ s, run init ops = some s ∧
    (∀ t, (s.dyn = some t ∨ s.stat = some t) → ∀ t', Below t t' → IsHull t'.bb (t'.leaves.map (·.bb))) ∧
    (∀ i b, m i = some (true, b) → ∃ l ∈ leavesOf s.dyn, l.id = i ∧ Incl b l.bb) ∧
    (∀ i b, m i = some (false, b) → ∃ l ∈ leavesOf s.stat, l.id = i ∧ Incl b l.bb) := by
  obtain ⟨s, hs, hr⟩ := (run_refines ops _ _ rel_init hops).1 m hm
  refine ⟨s, hs, ?_, ?_, ?_⟩
  · rintro t (ht | ht) t' hb
    · exact tight_hull t' (tight_below hb (hr.ok.td t ht))
    · exact tight_hull t' (tight_below hb (hr.ok.ts t ht))
  · intro i b hb
    obtain ⟨l, hl, e, hc⟩ := hr.d1 i b hb
    exact ⟨l, hl, e, (BB.contains_iff _ _).1 hc⟩
  · intro i b hb
    obtain ⟨l, hl, e, hc⟩ := hr.s1 i b hb
    exact ⟨l, hl, e, (BB.contains_iff _ _).1 hc⟩

/-! ## C67 -/

/-- After reindexing a shape, a box query finds it by its current box. -/
theorem C67_reindex_visible (ops : List (Op K)) (m : Index K) (hops : LegalRun emptyIndex ops)
    (hm : indexRun emptyIndex ops = some m) (i : Nat) (bb : BB K) (v : V2 K) (hp : Proper bb)
    (q : BB K) (hq : Overlap bb q) :
    ∃ s, run init ops = some s ∧
    (∀ b, m i = some (true, b) → i ∈ queryRoot q (reindexDyn s i bb v).dyn) ∧
    (∀ b, m i = some (false, b) → i ∈ queryRoot q (reindexStat s i bb).stat) := by
  obtain ⟨s, hs, hr⟩ := (run_refines ops _ _ rel_init hops).1 m hm
  refine ⟨s, hs, ?_, ?_⟩
  · intro b hb
    have h' := step_reindexDyn hr i bb v hp b hb
    obtain ⟨l, hl, e, hc⟩ := h'.d1 i bb (set_same _ _ _)
    rw [queryRoot_eq q _ h'.ok.td]
    exact mem_ids.2 ⟨l, List.mem_filter.2 ⟨hl, intersects_of_contains hc (contains_refl q) (overlap_intersects hq)⟩, e⟩
  · intro b hb
    have h' := step_reindexStat hr i bb hp b hb
    obtain ⟨l, hl, e, hc⟩ := h'.s1 i bb (set_same _ _ _)
    rw [queryRoot_eq q _ h'.ok.ts]
    exact mem_ids.2 ⟨l, List.mem_filter.2 ⟨hl, intersects_of_contains hc (contains_refl q) (overlap_intersects hq)⟩, e⟩

end

variable {K : Type} [Field K] [LinearOrder K] [IsStrictOrderedRing K]

/-! ## C11 -/

/-- `o'` is the best of `o` and the hits among the shapes `L`. -/
def Best (hit : Nat → Option K) (L : List Nat) (o o' : Out K) : Prop :=
  (∀ i ∈ L, ∀ α, hit i = some α → o'.alpha ≤ α) ∧ o'.alpha ≤ o.alpha ∧
  (o' = o ∨ ∃ i ∈ L, hit i = some o'.alpha ∧ o'.shape = some i ∧ o'.alpha < o.alpha)

theorem Best.append {hit : Nat → Option K} {L M : List Nat} {o o1 o2 : Out K} (h1 : Best hit L o o1) (h2 : Best hit M o1 o2) :
    Best hit (L ++ M) o o2 := by
  obtain ⟨a1, a2, a3⟩ := h1
  obtain ⟨b1, b2, b3⟩ := h2
  refine ⟨?_, le_trans b2 a2, ?_⟩
  · intro i hi α hα
    rcases List.mem_append.1 hi with hi | hi
    · exact le_trans b2 (a1 i hi α hα)
    · exact b1 i hi α hα
  · rcases b3 with rfl | ⟨i, hi, e1, e2, e3⟩
    · rcases a3 with rfl | ⟨i, hi, e1, e2, e3⟩
      · exact Or.inl rfl
      · exact Or.inr ⟨i, List.mem_append_left _ hi, e1, e2, e3⟩
    · exact Or.inr ⟨i, List.mem_append_right _ hi, e1, e2, lt_of_lt_of_le e3 a2⟩

theorem Best.perm {hit : Nat → Option K} {L M : List Nat} {o o' : Out K} (hp : ∀ i, i ∈ L ↔ i ∈ M) (h : Best hit L o o') :
    Best hit M o o' := by
  obtain ⟨a1, a2, a3⟩ := h
  refine ⟨fun i hi => a1 i ((hp i).2 hi), a2, ?_⟩
  rcases a3 with a3 | ⟨i, hi, e⟩
  · exact Or.inl a3
  · exact Or.inr ⟨i, (hp i).1 hi, e⟩

/-- Every hit of a leaf's shape happens inside the leaf's box. -/
def HitsInside (p q : V2 K) (hit : Nat → Option K) (L : List (Leaf K)) : Prop :=
  ∀ l ∈ L, ∀ α, hit l.id = some α → 0 ≤ α ∧ α ≤ 1 ∧ InBox l.bb (At p q α)

theorem proper_bb : ∀ t : BBTree.Tree K, Tight t → (∀ l ∈ t.leaves, Proper l.bb) → Proper t.bb := by
  intro t ht h
  obtain ⟨l, hl⟩ := List.exists_mem_of_ne_nil _ (leaves_ne_nil t)
  have hc := (BB.contains_iff _ _).1 (bb_contains_leaf t ht l hl)
  have hp := h l hl
  exact ⟨le_trans hc.1 (le_trans hp.1 hc.2.1), le_trans hc.2.2.1 (le_trans hp.2 hc.2.2.2)⟩

theorem inBox_mono {a b : BB K} {v : V2 K} (h : InBox a v) (hc : b.contains a = true) : InBox b v := by
  obtain ⟨h1, h2, h3, h4⟩ := h
  obtain ⟨c1, c2, c3, c4⟩ := (BB.contains_iff _ _).1 hc
  exact ⟨le_trans c1 h1, le_trans h2 c2, le_trans c3 h3, le_trans h4 c4⟩

/-- The box is entered no later than any hit below it. -/
theorem entry_le (inf : K) (hinf : 1 < inf) (p q : V2 K) (hit : Nat → Option K) (t : BBTree.Tree K) (ht : Tight t)
    (hpr : ∀ l ∈ t.leaves, Proper l.bb) (hin : HitsInside p q hit t.leaves) {i : Nat} (hi : i ∈ ids t.leaves) {α : K}
    (hα : hit i = some α) : t.bb.segmentQuery inf p q ≤ α := by
  obtain ⟨l, hl, rfl⟩ := mem_ids.1 hi
  obtain ⟨h0, h1, hb⟩ := hin l hl α hα
  have hb' := inBox_mono hb (bb_contains_leaf t ht l hl)
  rcases C13_segmentQuery_exact inf hinf t.bb (proper_bb t ht hpr) p q with ⟨_, h⟩ | ⟨_, _, _, _, h⟩
  · exact absurd hb' (h α h0 h1)
  · exact h α h0 h1 hb'

theorem segment_best (inf : K) (hinf : 1 < inf) (p q : V2 K) (hit : Nat → Option K) : ∀ (t : BBTree.Tree K), Tight t →
    (∀ l ∈ t.leaves, Proper l.bb) → HitsInside p q hit t.leaves → ∀ (o : Out K),
    (t.segmentQuery inf p q (queryFirst hit) o.alpha o).1 = (t.segmentQuery inf p q (queryFirst hit) o.alpha o).2.alpha ∧
    Best hit (ids t.leaves) o (t.segmentQuery inf p q (queryFirst hit) o.alpha o).2
  | .leaf l, _, _, _, o => by
    unfold BBTree.Tree.segmentQuery queryFirst
    dsimp only
    refine ⟨rfl, ?_⟩
    cases hh : hit l.id with
    | none =>
      dsimp only
      refine ⟨?_, le_refl _, Or.inl rfl⟩
      intro i hi α hα
      simp [BBTree.Tree.leaves] at hi
      rw [hi, hh] at hα; cases hα
    | some β =>
      dsimp only
      by_cases hlt : β < o.alpha
      · rw [if_pos hlt]
        refine ⟨?_, hlt.le, Or.inr ⟨l.id, by simp [BBTree.Tree.leaves], hh, rfl, hlt⟩⟩
        intro i hi α hα
        simp [BBTree.Tree.leaves] at hi
        rw [hi, hh] at hα; cases hα; exact le_refl _
      · rw [if_neg hlt]
        refine ⟨?_, le_refl _, Or.inl rfl⟩
        intro i hi α hα
        simp [BBTree.Tree.leaves] at hi
        rw [hi, hh] at hα; cases hα; exact not_lt.1 hlt
  | .node bb a b, ht, hpr, hin, o => by
    have hpa : ∀ l ∈ a.leaves, Proper l.bb := fun l hl => hpr l (by simp [BBTree.Tree.leaves, hl])
    have hpb : ∀ l ∈ b.leaves, Proper l.bb := fun l hl => hpr l (by simp [BBTree.Tree.leaves, hl])
    have hia : HitsInside p q hit a.leaves := fun l hl => hin l (by simp [BBTree.Tree.leaves, hl])
    have hib : HitsInside p q hit b.leaves := fun l hl => hin l (by simp [BBTree.Tree.leaves, hl])
    -- one child, pruned or not
    have child : ∀ (c : BBTree.Tree K), Tight c → (∀ l ∈ c.leaves, Proper l.bb) → HitsInside p q hit c.leaves →
        (∀ o : Out K, (c.segmentQuery inf p q (queryFirst hit) o.alpha o).1 =
          (c.segmentQuery inf p q (queryFirst hit) o.alpha o).2.alpha ∧
          Best hit (ids c.leaves) o (c.segmentQuery inf p q (queryFirst hit) o.alpha o).2) → ∀ o : Out K,
        (if c.bb.segmentQuery inf p q < o.alpha then
          (min o.alpha (c.segmentQuery inf p q (queryFirst hit) o.alpha o).1,
            (c.segmentQuery inf p q (queryFirst hit) o.alpha o).2)
          else (o.alpha, o)).1 =
        (if c.bb.segmentQuery inf p q < o.alpha then
          (min o.alpha (c.segmentQuery inf p q (queryFirst hit) o.alpha o).1,
            (c.segmentQuery inf p q (queryFirst hit) o.alpha o).2)
          else (o.alpha, o)).2.alpha ∧
        Best hit (ids c.leaves) o (if c.bb.segmentQuery inf p q < o.alpha then
          (min o.alpha (c.segmentQuery inf p q (queryFirst hit) o.alpha o).1,
            (c.segmentQuery inf p q (queryFirst hit) o.alpha o).2)
          else (o.alpha, o)).2 := by
      intro c hc hpc hic ih o
      obtain ⟨i1, i2⟩ := ih o
      by_cases hlt : c.bb.segmentQuery inf p q < o.alpha
      · rw [if_pos hlt]
        refine ⟨?_, i2⟩
        dsimp only
        rw [i1, min_eq_right i2.2.1]
      · rw [if_neg hlt]
        refine ⟨rfl, ?_, le_refl _, Or.inl rfl⟩
        intro i hi α hα
        exact le_trans (not_lt.1 hlt) (entry_le inf hinf p q hit c hc hpc hic hi hα)
    have ca := child a ht.2.1 hpa hia (segment_best inf hinf p q hit a ht.2.1 hpa hia)
    have cb := child b ht.2.2 hpb hib (segment_best inf hinf p q hit b ht.2.2 hpb hib)
    unfold BBTree.Tree.segmentQuery
    dsimp only
    split
    · obtain ⟨a1, a2⟩ := ca o
      set r := (if a.bb.segmentQuery inf p q < o.alpha then
          (min o.alpha (a.segmentQuery inf p q (queryFirst hit) o.alpha o).1,
            (a.segmentQuery inf p q (queryFirst hit) o.alpha o).2)
          else (o.alpha, o)) with hr
      obtain ⟨b1, b2⟩ := cb r.2
      rw [← a1] at b1 b2
      refine ⟨b1, ?_⟩
      have := a2.append b2
      rw [← ids_append] at this
      exact this
    · obtain ⟨a1, a2⟩ := cb o
      set r := (if b.bb.segmentQuery inf p q < o.alpha then
          (min o.alpha (b.segmentQuery inf p q (queryFirst hit) o.alpha o).1,
            (b.segmentQuery inf p q (queryFirst hit) o.alpha o).2)
          else (o.alpha, o)) with hr
      obtain ⟨b1, b2⟩ := ca r.2
      rw [← a1] at b1 b2
      refine ⟨b1, ?_⟩
      have := a2.append b2
      rw [← ids_append] at this
      refine this.perm ?_
      intro i
      simp only [BBTree.Tree.leaves, ids_append, List.mem_append]
      exact or_comm

theorem first_hit_rel (inf : K) (hinf : 1 < inf) {m : Index K} {s : State K} (hr : Rel m s) (p q : V2 K) (hit : Nat → Option K)
    (hin : ∀ i k b α, m i = some (k, b) → hit i = some α → 0 ≤ α ∧ α ≤ 1 ∧ InBox b (At p q α)) :
    let r := segmentQueryFirst inf s p q hit
    ((r.shape = none ∧ r.alpha = 1 ∧ ∀ i α, (m i).isSome → hit i = some α → 1 ≤ α) ∨
     (∃ i, r.shape = some i ∧ (m i).isSome ∧ hit i = some r.alpha ∧ r.alpha < 1 ∧
       ∀ j β, (m j).isSome → hit j = some β → r.alpha ≤ β)) := by
  intro r
  have hin_d : HitsInside p q hit (leavesOf s.dyn) := by
    intro l hl α hα
    obtain ⟨b, hb⟩ := hr.d2 l hl
    obtain ⟨h0, h1, h2⟩ := hin l.id true b α hb hα
    obtain ⟨l', hl', e, hc⟩ := hr.d1 l.id b hb
    have : l' = l := List.inj_on_of_nodup_map (nodup_dyn hr.ok.okm) hl' hl e
    rw [this] at hc
    exact ⟨h0, h1, inBox_mono h2 hc⟩
  have hin_s : HitsInside p q hit (leavesOf s.stat) := by
    intro l hl α hα
    obtain ⟨b, hb⟩ := hr.s2 l hl
    obtain ⟨h0, h1, h2⟩ := hin l.id false b α hb hα
    obtain ⟨l', hl', e, hc⟩ := hr.s1 l.id b hb
    have : l' = l := List.inj_on_of_nodup_map (nodup_stat hr.ok.okm) hl' hl e
    rw [this] at hc
    exact ⟨h0, h1, inBox_mono h2 hc⟩
  have rootBest : ∀ (t : Option (BBTree.Tree K)), TightO t → (∀ l ∈ leavesOf t, Proper l.bb) → HitsInside p q hit (leavesOf t) →
      ∀ o : Out K, Best hit (ids (leavesOf t)) o (segmentRoot inf p q (queryFirst hit) t o.alpha o) := by
    intro t ht hp hi o
    cases t with
    | none => exact ⟨by simp [leavesOf], le_refl _, Or.inl rfl⟩
    | some t => exact (segment_best inf hinf p q hit t (ht t rfl) hp hi o).2
  have h1 := rootBest s.stat hr.ok.ts hr.ok.ps hin_s ⟨1, none⟩
  have h2 := rootBest s.dyn hr.ok.td hr.ok.pd hin_d (segmentRoot inf p q (queryFirst hit) s.stat 1 ⟨1, none⟩)
  obtain ⟨c1, c2, c3⟩ := h1.append h2
  have hmem : ∀ i, (m i).isSome = true → i ∈ ids (leavesOf s.stat) ++ ids (leavesOf s.dyn) := by
    intro i hi
    obtain ⟨⟨k, b⟩, hb⟩ := Option.isSome_iff_exists.1 hi
    cases k with
    | true => exact List.mem_append_right _ ((hr.dyn_iff i).2 ⟨b, hb⟩)
    | false => exact List.mem_append_left _ ((hr.stat_iff i).2 ⟨b, hb⟩)
  rcases c3 with c3 | ⟨i, hi, e1, e2, e3⟩
  · left
    have hr' : r = ⟨1, none⟩ := c3
    rw [hr']
    refine ⟨rfl, rfl, ?_⟩
    intro i α hi hα
    have := c1 i (hmem i hi) α hα
    rw [show segmentRoot inf p q (queryFirst hit) s.dyn _ _ = (⟨1, none⟩ : Out K) from c3] at this
    exact this
  · right
    refine ⟨i, e2, ?_, e1, e3, ?_⟩
    · rcases List.mem_append.1 hi with hi | hi
      · obtain ⟨b, hb⟩ := (hr.stat_iff i).1 hi; simp [hb]
      · obtain ⟨b, hb⟩ := (hr.dyn_iff i).1 hi; simp [hb]
    · intro j β hj hβ
      exact c1 j (hmem j hj) β hβ

/-- `SegmentQueryFirst` after any history: the result is the smallest hit fraction below 1 over all indexed shapes, with a
shape attaining it; or there is no such hit. The hits of a shape must lie in the box it was last indexed with. -/
theorem C11_first_hit (inf : K) (hinf : 1 < inf) (ops : List (Op K)) (m : Index K) (hops : LegalRun emptyIndex ops)
    (hm : indexRun emptyIndex ops = some m) (p q : V2 K) (hit : Nat → Option K)
    (hin : ∀ i k b α, m i = some (k, b) → hit i = some α → 0 ≤ α ∧ α ≤ 1 ∧ InBox b (At p q α)) :
    ∃ s, run init ops = some s ∧
    let r := segmentQueryFirst inf s p q hit
    ((r.shape = none ∧ r.alpha = 1 ∧ ∀ i α, (m i).isSome → hit i = some α → 1 ≤ α) ∨
     (∃ i, r.shape = some i ∧ (m i).isSome ∧ hit i = some r.alpha ∧ r.alpha < 1 ∧
       ∀ j β, (m j).isSome → hit j = some β → r.alpha ≤ β)) := by
  obtain ⟨s, hs, hr⟩ := (run_refines ops _ _ rel_init hops).1 m hm
  exact ⟨s, hs, first_hit_rel inf hinf hr p q hit hin⟩

/-! `SegmentQuery` (all hits). -/

theorem segment_all (inf : K) (hinf : 1 < inf) (p q : V2 K) (hit : Nat → Option K) : ∀ (t : BBTree.Tree K), Tight t →
    (∀ l ∈ t.leaves, Proper l.bb) → HitsInside p q hit t.leaves → ∀ (w : List (Nat × K)),
    ∃ w', (t.segmentQuery inf p q (querySeg hit) 1 w) = (1, w ++ w') ∧
      (∀ i, (w'.map Prod.fst).count i ≤ (ids t.leaves).count i) ∧
      (∀ x ∈ w', hit x.1 = some x.2) ∧
      (∀ i ∈ ids t.leaves, ∀ α, hit i = some α → α < 1 → (i, α) ∈ w')
  | .leaf l, _, _, _, w => by
    unfold BBTree.Tree.segmentQuery querySeg
    cases hh : hit l.id with
    | none =>
      refine ⟨[], by simp, by simp, by simp, ?_⟩
      intro i hi α hα _
      simp [BBTree.Tree.leaves] at hi
      rw [hi, hh] at hα; cases hα
    | some β =>
      refine ⟨[(l.id, β)], rfl, by simp [BBTree.Tree.leaves], by simp [hh], ?_⟩
      intro i hi α hα _
      simp [BBTree.Tree.leaves] at hi
      subst hi
      rw [hh] at hα; cases hα; simp
  | .node bb a b, ht, hpr, hin, w => by
    have hpa : ∀ l ∈ a.leaves, Proper l.bb := fun l hl => hpr l (by simp [BBTree.Tree.leaves, hl])
    have hpb : ∀ l ∈ b.leaves, Proper l.bb := fun l hl => hpr l (by simp [BBTree.Tree.leaves, hl])
    have hia : HitsInside p q hit a.leaves := fun l hl => hin l (by simp [BBTree.Tree.leaves, hl])
    have hib : HitsInside p q hit b.leaves := fun l hl => hin l (by simp [BBTree.Tree.leaves, hl])
    have child : ∀ (c : BBTree.Tree K), Tight c → (∀ l ∈ c.leaves, Proper l.bb) → HitsInside p q hit c.leaves →
        (∀ w, ∃ w', (c.segmentQuery inf p q (querySeg hit) 1 w) = (1, w ++ w') ∧
          (∀ i, (w'.map Prod.fst).count i ≤ (ids c.leaves).count i) ∧
          (∀ x ∈ w', hit x.1 = some x.2) ∧ (∀ i ∈ ids c.leaves, ∀ α, hit i = some α → α < 1 → (i, α) ∈ w')) → ∀ w,
        ∃ w', (if c.bb.segmentQuery inf p q < 1 then
          (min 1 (c.segmentQuery inf p q (querySeg hit) 1 w).1, (c.segmentQuery inf p q (querySeg hit) 1 w).2)
          else (1, w)) = ((1 : K), w ++ w') ∧ (∀ i, (w'.map Prod.fst).count i ≤ (ids c.leaves).count i) ∧
          (∀ x ∈ w', hit x.1 = some x.2) ∧ (∀ i ∈ ids c.leaves, ∀ α, hit i = some α → α < 1 → (i, α) ∈ w') := by
      intro c hc hpc hic ih w
      by_cases hlt : c.bb.segmentQuery inf p q < 1
      · rw [if_pos hlt]
        obtain ⟨w', e, h1, h2, h3⟩ := ih w
        exact ⟨w', by rw [e]; simp, h1, h2, h3⟩
      · rw [if_neg hlt]
        refine ⟨[], by simp, by simp, by simp, ?_⟩
        intro i hi α hα hα1
        exact absurd (lt_of_le_of_lt (entry_le inf hinf p q hit c hc hpc hic hi hα) hα1) hlt
    have ca := child a ht.2.1 hpa hia (segment_all inf hinf p q hit a ht.2.1 hpa hia)
    have cb := child b ht.2.2 hpb hib (segment_all inf hinf p q hit b ht.2.2 hpb hib)
    unfold BBTree.Tree.segmentQuery
    dsimp only
    split
    · obtain ⟨w1, e1, f1, g1, h1⟩ := ca w
      rw [e1]
      obtain ⟨w2, e2, f2, g2, h2⟩ := cb (w ++ w1)
      dsimp only
      rw [e2]
      refine ⟨w1 ++ w2, by simp, ?_, ?_, ?_⟩
      · intro i
        simp only [BBTree.Tree.leaves, ids_append, List.map_append, List.count_append]
        have := f1 i; have := f2 i; omega
      · intro x hx
        rcases List.mem_append.1 hx with hx | hx
        · exact g1 x hx
        · exact g2 x hx
      · intro i hi α hα hlt
        simp only [BBTree.Tree.leaves, ids_append, List.mem_append] at hi
        rcases hi with hi | hi
        · exact List.mem_append_left _ (h1 i hi α hα hlt)
        · exact List.mem_append_right _ (h2 i hi α hα hlt)
    · obtain ⟨w1, e1, f1, g1, h1⟩ := cb w
      rw [e1]
      obtain ⟨w2, e2, f2, g2, h2⟩ := ca (w ++ w1)
      dsimp only
      rw [e2]
      refine ⟨w1 ++ w2, by simp, ?_, ?_, ?_⟩
      · intro i
        simp only [BBTree.Tree.leaves, ids_append, List.map_append, List.count_append]
        have := f1 i; have := f2 i; omega
      · intro x hx
        rcases List.mem_append.1 hx with hx | hx
        · exact g1 x hx
        · exact g2 x hx
      · intro i hi α hα hlt
        simp only [BBTree.Tree.leaves, ids_append, List.mem_append] at hi
        rcases hi with hi | hi
        · exact List.mem_append_right _ (h2 i hi α hα hlt)
        · exact List.mem_append_left _ (h1 i hi α hα hlt)

theorem all_hits_rel (inf : K) (hinf : 1 < inf) {m : Index K} {s : State K} (hr : Rel m s) (p q : V2 K) (hit : Nat → Option K)
    (hin : ∀ i k b α, m i = some (k, b) → hit i = some α → 0 ≤ α ∧ α ≤ 1 ∧ InBox b (At p q α)) :
    let r := segmentQueryAll inf s p q hit
    (r.map Prod.fst).Nodup ∧ (∀ i α, (i, α) ∈ r → (m i).isSome ∧ hit i = some α) ∧
    (∀ i α, (m i).isSome → hit i = some α → α < 1 → (i, α) ∈ r) := by
  intro r
  have hin_d : HitsInside p q hit (leavesOf s.dyn) := by
    intro l hl α hα
    obtain ⟨b, hb⟩ := hr.d2 l hl
    obtain ⟨h0, h1, h2⟩ := hin l.id true b α hb hα
    obtain ⟨l', hl', e, hc⟩ := hr.d1 l.id b hb
    have : l' = l := List.inj_on_of_nodup_map (nodup_dyn hr.ok.okm) hl' hl e
    rw [this] at hc
    exact ⟨h0, h1, inBox_mono h2 hc⟩
  have hin_s : HitsInside p q hit (leavesOf s.stat) := by
    intro l hl α hα
    obtain ⟨b, hb⟩ := hr.s2 l hl
    obtain ⟨h0, h1, h2⟩ := hin l.id false b α hb hα
    obtain ⟨l', hl', e, hc⟩ := hr.s1 l.id b hb
    have : l' = l := List.inj_on_of_nodup_map (nodup_stat hr.ok.okm) hl' hl e
    rw [this] at hc
    exact ⟨h0, h1, inBox_mono h2 hc⟩
  have rootAll : ∀ (t : Option (BBTree.Tree K)), TightO t → (∀ l ∈ leavesOf t, Proper l.bb) → HitsInside p q hit (leavesOf t) →
      ∀ w : List (Nat × K), ∃ w', segmentRoot inf p q (querySeg hit) t 1 w = w ++ w' ∧
      (∀ i, (w'.map Prod.fst).count i ≤ (ids (leavesOf t)).count i) ∧ (∀ x ∈ w', hit x.1 = some x.2) ∧
      (∀ i ∈ ids (leavesOf t), ∀ α, hit i = some α → α < 1 → (i, α) ∈ w') := by
    intro t ht hp hi w
    cases t with
    | none => exact ⟨[], by simp [segmentRoot], by simp, by simp, by simp [leavesOf]⟩
    | some t =>
      obtain ⟨w', e, h⟩ := segment_all inf hinf p q hit t (ht t rfl) hp hi w
      exact ⟨w', by simp [segmentRoot, e], h⟩
  obtain ⟨w1, e1, f1, g1, h1⟩ := rootAll s.stat hr.ok.ts hr.ok.ps hin_s []
  obtain ⟨w2, e2, f2, g2, h2⟩ := rootAll s.dyn hr.ok.td hr.ok.pd hin_d w1
  have hr' : r = w1 ++ w2 := by
    change segmentRoot inf p q (querySeg hit) s.dyn 1 (segmentRoot inf p q (querySeg hit) s.stat 1 []) = _
    rw [e1, List.nil_append, e2]
  have cnt : ∀ i, (r.map Prod.fst).count i ≤ (ids (leavesOf s.dyn ++ leavesOf s.stat)).count i := by
    intro i
    rw [hr', List.map_append, List.count_append, ids_append, List.count_append]
    have := f1 i; have := f2 i; omega
  refine ⟨?_, ?_, ?_⟩
  · rw [List.nodup_iff_count_le_one]
    intro i
    exact le_trans (cnt i) (List.nodup_iff_count_le_one.1 hr.ok.inv.nd i)
  · intro i α hi
    constructor
    · have hpos : 0 < (r.map Prod.fst).count i := List.count_pos_iff.2 (List.mem_map.2 ⟨_, hi, rfl⟩)
      have := List.count_pos_iff.1 (lt_of_lt_of_le hpos (cnt i))
      rw [ids_append, List.mem_append] at this
      rcases this with h | h
      · obtain ⟨b, hb⟩ := (hr.dyn_iff i).1 h; simp [hb]
      · obtain ⟨b, hb⟩ := (hr.stat_iff i).1 h; simp [hb]
    · rw [hr'] at hi
      rcases List.mem_append.1 hi with hi | hi
      · exact g1 _ hi
      · exact g2 _ hi
  · intro i α hi hα hlt
    obtain ⟨⟨k, b⟩, hb⟩ := Option.isSome_iff_exists.1 hi
    rw [hr']
    cases k with
    | true => exact List.mem_append_right _ (h2 i ((hr.dyn_iff i).2 ⟨b, hb⟩) α hα hlt)
    | false => exact List.mem_append_left _ (h1 i ((hr.stat_iff i).2 ⟨b, hb⟩) α hα hlt)

/-- `SegmentQuery` after any history: the user's function is called at most once per shape, only for hits, and for
every hit before the end of the segment. (A hit exactly at the end may be pruned: `C11_end_hit_depends_on_tree`.) -/
theorem C11_all_hits (inf : K) (hinf : 1 < inf) (ops : List (Op K)) (m : Index K) (hops : LegalRun emptyIndex ops)
    (hm : indexRun emptyIndex ops = some m) (p q : V2 K) (hit : Nat → Option K)
    (hin : ∀ i k b α, m i = some (k, b) → hit i = some α → 0 ≤ α ∧ α ≤ 1 ∧ InBox b (At p q α)) :
    ∃ s, run init ops = some s ∧
    let r := segmentQueryAll inf s p q hit
    (r.map Prod.fst).Nodup ∧ (∀ i α, (i, α) ∈ r → (m i).isSome ∧ hit i = some α) ∧
    (∀ i α, (m i).isSome → hit i = some α → α < 1 → (i, α) ∈ r) := by
  obtain ⟨s, hs, hr⟩ := (run_refines ops _ _ rel_init hops).1 m hm
  exact ⟨s, hs, all_hits_rel inf hinf hr p q hit hin⟩

/-! ## Examples: a history meeting the hypotheses -/

section examples

def exOps : List (Op ℚ) :=
  [.insertDyn 0 ⟨0, 0, 1, 1⟩ ⟨0, 0⟩, .insertDyn 1 ⟨5, 0, 6, 1⟩ ⟨0, 0⟩, .insertStat 2 ⟨0, -1, 9, 0⟩,
   .reindexDyn 1 ⟨2, 0, 3, 1⟩ ⟨-1, 0⟩]

def exIndex : Index ℚ := ((((emptyIndex : Index ℚ).set 0 (some (true, ⟨0, 0, 1, 1⟩))).set 1 (some (true, ⟨5, 0, 6, 1⟩))).set 2
  (some (false, ⟨0, -1, 9, 0⟩))).set 1 (some (true, ⟨2, 0, 3, 1⟩))

theorem exOps_index : indexRun emptyIndex exOps = some exIndex := by
  simp [exOps, indexRun, indexStep, emptyIndex, Index.set, exIndex]

theorem exOps_legal : LegalRun emptyIndex exOps := by
  refine ⟨⟨by norm_num, by norm_num⟩, fun m1 h1 => ⟨⟨by norm_num, by norm_num⟩, fun m2 h2 => ⟨⟨by norm_num, by norm_num⟩,
    fun m3 h3 => ⟨⟨by norm_num, by norm_num⟩, fun m4 h4 => trivial⟩⟩⟩⟩

/-- The boxes after moving shape 1 next to shape 0: all three shapes overlap pairwise. -/
def exBB : Nat → BB ℚ := fun i => if i = 0 then ⟨0, 0, 1, 1⟩ else ⟨1/2, 0, 3/2, 1⟩

example : LegalRun emptyIndex exOps ∧ indexRun emptyIndex exOps = some exIndex ∧
    Legal exIndex (.reindexQuery [1, 0] exBB (fun _ => ⟨0, 0⟩)) ∧
    (∃ b, exIndex 0 = some (true, b)) ∧ (∃ b, exIndex 1 = some (true, b)) ∧ (∃ b, exIndex 2 = some (false, b) ∧ Overlap (exBB 1) b) ∧
    Overlap (exBB 0) (exBB 1) := by
  refine ⟨exOps_legal, exOps_index, ⟨?_, by simp, ?_⟩, ⟨_, rfl⟩, ⟨_, rfl⟩, ⟨_, rfl, ⟨1, 0⟩, ?_⟩, ⟨1, 1⟩, ?_⟩
  · intro i; unfold exBB; split <;> constructor <;> norm_num
  · intro i
    by_cases h0 : i = 0
    · subst h0; simp [exIndex, Index.set]
    by_cases h1 : i = 1
    · subst h1; simp [exIndex, Index.set]
    by_cases h2 : i = 2
    · subst h2; simp [exIndex, Index.set]
    simp [exIndex, Index.set, h0, h1, h2, emptyIndex]
  · norm_num [InBox, exBB]
  · norm_num [InBox, exBB]

/-- Hits at 1/10 of the way for shape 0 only, and boxes as in the history. -/
example : (1 : ℚ) < 1000 ∧ LegalRun emptyIndex exOps ∧ indexRun emptyIndex exOps = some exIndex ∧
    let hit : Nat → Option ℚ := fun i => if i = 0 then some (1/10) else none
    ∀ i k b α, exIndex i = some (k, b) → hit i = some α → 0 ≤ α ∧ α ≤ 1 ∧ InBox b (At ⟨-1, 1/2⟩ ⟨9, 1/2⟩ α) := by
  refine ⟨by norm_num, exOps_legal, exOps_index, ?_⟩
  intro hit i k b α hb hα
  by_cases h0 : i = 0
  · subst h0
    have : α = 1/10 := by simpa [hit] using hα.symm
    subst this
    have : b = ⟨0, 0, 1, 1⟩ := by
      have := hb; simp [exIndex, Index.set] at this; exact this.2.symm
    subst this
    norm_num [InBox, At]
  · simp [hit, h0] at hα

example : Proper (⟨2, 0, 3, 1⟩ : BB ℚ) ∧ Overlap (⟨2, 0, 3, 1⟩ : BB ℚ) ⟨3, 1, 4, 4⟩ ∧ exIndex 1 = some (true, ⟨2, 0, 3, 1⟩) := by
  refine ⟨⟨by norm_num, by norm_num⟩, ⟨⟨3, 1⟩, by norm_num [InBox], by norm_num [InBox]⟩, rfl⟩

example (i : Nat) (k : Bool) (b : BB ℚ) (h : exIndex i = some (k, b)) : (fun i => ((exIndex i).getD (true, ⟨0,0,0,0⟩)).2) i = b := by
  simp [h]

end examples

/-! ## C12: the property fails -/

section thick

/-- Two static shapes far apart; the ray along the x axis, fattened by radius 1, touches the box `[4,5]×[1/2,3/2]` of
shape 0 (and the shape filling it), but the pruning test uses the thin ray. -/
def thickOps : List (Op ℚ) := [.insertStat 0 ⟨4, 1/2, 5, 3/2⟩, .insertStat 1 ⟨4, 10, 5, 11⟩]

/-- Squared distance from a point to a box. -/
def boxDist2 (b : BB ℚ) (v : V2 ℚ) : ℚ := (max (max (b.L - v.x) (v.x - b.R)) 0) ^ 2 + (max (max (b.B - v.y) (v.y - b.T)) 0) ^ 2

/-- The swept circle of radius 1 touches the box of shape 0 when its centre is at (4, 0), which is fraction 2/5 of the way,
yet neither query looks at the shape at all. A tree with only shape 0 finds it. -/
theorem C12_thick_query_misses :
    let b : BB ℚ := ⟨4, 1/2, 5, 3/2⟩
    let hit : Nat → Option ℚ := fun i => if i = 0 then some (2/5) else none
    boxDist2 b (At ⟨0, 0⟩ ⟨10, 0⟩ (2/5)) ≤ 1 ^ 2 ∧
    (∃ s, run init thickOps = some s ∧ (segmentQueryFirst 1000 s ⟨0, 0⟩ ⟨10, 0⟩ hit).shape = none ∧
      segmentQueryAll 1000 s ⟨0, 0⟩ ⟨10, 0⟩ hit = []) ∧
    (∃ s, run init (thickOps.take 1) = some s ∧ (segmentQueryFirst 1000 s ⟨0, 0⟩ ⟨10, 0⟩ hit).shape = some 0) := by
  refine ⟨by norm_num [boxDist2, At], ⟨_, rfl, ?_, ?_⟩, ⟨_, rfl, ?_⟩⟩
  · decide +kernel
  · decide +kernel
  · decide +kernel

/-- A hit exactly at the end of the segment is reported by a tree of one shape and not by a tree of two. -/
theorem C11_end_hit_depends_on_tree :
    let ops : List (Op ℚ) := [.insertStat 0 ⟨4, -1, 5, 1⟩, .insertStat 1 ⟨4, 10, 5, 11⟩]
    let hit : Nat → Option ℚ := fun i => if i = 0 then some 1 else none
    InBox (⟨4, -1, 5, 1⟩ : BB ℚ) (At ⟨0, 0⟩ ⟨4, 0⟩ 1) ∧
    (∃ s, run init (ops.take 1) = some s ∧ segmentQueryAll 1000 s ⟨0, 0⟩ ⟨4, 0⟩ hit = [(0, 1)]) ∧
    (∃ s, run init ops = some s ∧ segmentQueryAll 1000 s ⟨0, 0⟩ ⟨4, 0⟩ hit = []) := by
  refine ⟨by norm_num [InBox, At], ⟨_, rfl, ?_⟩, ⟨_, rfl, ?_⟩⟩
  · decide +kernel
  · decide +kernel

end thick

end Cm
