import Verif.Proofs.BBTree
/-! # The invariant of the paired trees and the effect of every operation on it -/
set_option linter.unusedSectionVars false
set_option linter.unusedSimpArgs false
set_option linter.unusedTactic false
set_option linter.unreachableTactic false
set_option linter.unnecessarySeqFocus false
namespace Cm
namespace BBTree
variable {K : Type} [Zero K] [One K] [Add K] [Sub K] [Mul K] [Div K] [Neg K] [NatCast K] [LinearOrder K] [Spec.Rounded K]

/-- 1 if the boxes meet, else 0. -/
def meet (u v : Leaf K) : Nat := if u.bb.intersects v.bb then 1 else 0

theorem meet_symm (u v : Leaf K) : meet u v = meet v u := by unfold meet; rw [intersects_symm]

/-- In the middle of an operation: leaves stamped with the current stamp have moved and have no pairs. -/
structure Mid (D S : List (Leaf K)) (st : Nat) (P : List (Nat × Nat)) : Prop where
  nd : (ids (D ++ S)).Nodup
  sd : ∀ l ∈ D, l.stamp ≤ st
  ss : ∀ l ∈ S, l.stamp < st
  pm : ∀ p ∈ P, p.2 ∈ ids D ∧ p.1 ∈ ids (D ++ S) ∧ p.1 ≠ p.2
  mv : ∀ l ∈ D, l.stamp = st → ∀ p ∈ P, p.1 ≠ l.id ∧ p.2 ≠ l.id
  dd : ∀ u ∈ D, ∀ v ∈ D, u.id ≠ v.id → u.stamp < st → v.stamp < st →
    P.count (u.id, v.id) + P.count (v.id, u.id) = meet u v
  ds : ∀ s ∈ S, ∀ x ∈ D, x.stamp < st → P.count (s.id, x.id) = meet s x

/-- Between operations: exactly one pair for every two leaves that meet. -/
structure Inv (D S : List (Leaf K)) (st : Nat) (P : List (Nat × Nat)) : Prop where
  nd : (ids (D ++ S)).Nodup
  sd : ∀ l ∈ D, l.stamp < st
  ss : ∀ l ∈ S, l.stamp < st
  pm : ∀ p ∈ P, p.2 ∈ ids D ∧ p.1 ∈ ids (D ++ S) ∧ p.1 ≠ p.2
  dd : ∀ u ∈ D, ∀ v ∈ D, u.id ≠ v.id → P.count (u.id, v.id) + P.count (v.id, u.id) = meet u v
  ds : ∀ s ∈ S, ∀ x ∈ D, P.count (s.id, x.id) = meet s x

variable {D S : List (Leaf K)} {st : Nat} {P : List (Nat × Nat)}

theorem Inv.mid (h : Inv D S st P) : Mid D S st P :=
  ⟨h.nd, fun l hl => (h.sd l hl).le, h.ss, h.pm, fun l hl e => absurd e (h.sd l hl).ne,
    fun u hu v hv hne _ _ => h.dd u hu v hv hne, fun s hs x hx _ => h.ds s hs x hx⟩

theorem Inv.succ (h : Inv D S st P) : Inv D S (st + 1) P :=
  ⟨h.nd, fun l hl => Nat.lt_succ_of_lt (h.sd l hl), fun l hl => Nat.lt_succ_of_lt (h.ss l hl), h.pm, h.dd, h.ds⟩

theorem Mid.perm {D' S' : List (Leaf K)} (h : Mid D S st P) (hD : D'.Perm D) (hS : S'.Perm S) : Mid D' S' st P := by
  have hm : ∀ l, l ∈ D' ↔ l ∈ D := fun l => hD.mem_iff
  have hs : ∀ l, l ∈ S' ↔ l ∈ S := fun l => hS.mem_iff
  have hi : ∀ i, i ∈ ids D' ↔ i ∈ ids D := fun i => (hD.map _).mem_iff
  have hi2 : ∀ i, i ∈ ids (D' ++ S') ↔ i ∈ ids (D ++ S) := fun i => ((hD.append hS).map _).mem_iff
  refine ⟨((hD.append hS).map _).nodup_iff.2 h.nd, ?_, ?_, ?_, ?_, ?_, ?_⟩
  · intro l hl; exact h.sd l ((hm l).1 hl)
  · intro l hl; exact h.ss l ((hs l).1 hl)
  · intro p hp; rw [hi, hi2]; exact h.pm p hp
  · intro l hl; exact h.mv l ((hm l).1 hl)
  · intro u hu v hv; exact h.dd u ((hm u).1 hu) v ((hm v).1 hv)
  · intro s hs' x hx; exact h.ds s ((hs s).1 hs') x ((hm x).1 hx)

theorem Inv.of_mid (h : Mid D S st P) (hs : ∀ l ∈ D, l.stamp < st) : Inv D S st P :=
  ⟨h.nd, hs, h.ss, h.pm, fun u hu v hv hne => h.dd u hu v hv hne (hs u hu) (hs v hv),
    fun s hs' x hx => h.ds s hs' x hx (hs x hx)⟩

theorem Inv.perm {D' S' : List (Leaf K)} (h : Inv D S st P) (hD : D'.Perm D) (hS : S'.Perm S) : Inv D' S' st P :=
  Inv.of_mid (h.mid.perm hD hS) (fun l hl => h.sd l (hD.mem_iff.1 hl))

/-! ## Counting -/

theorem count_map_left (c : Nat) (f : Leaf K → Bool) : ∀ (L : List (Leaf K)), (ids L).Nodup → ∀ v ∈ L,
    ((L.filter f).map (fun s => (c, s.id))).count (c, v.id) = if f v then 1 else 0
  | [], _, v, h => by simp at h
  | x :: L, hn, v, h => by
    rw [ids_cons, List.nodup_cons] at hn
    have zero : ∀ w : Leaf K, w.id ∉ ids L → ((L.filter f).map (fun s => (c, s.id))).count (c, w.id) = 0 := by
      intro w hw
      rw [List.count_eq_zero]
      intro hmem
      obtain ⟨s, hs, e⟩ := List.mem_map.1 hmem
      exact hw (mem_ids.2 ⟨s, (List.mem_filter.1 hs).1, (Prod.mk.inj e).2⟩)
    rcases List.mem_cons.1 h with rfl | h
    · by_cases hf : f v = true
      · simp [hf, zero v hn.1]
      · simp [hf, zero v hn.1]
    · have ih := count_map_left c f L hn.2 v h
      have hne : x.id ≠ v.id := fun e => hn.1 (e ▸ mem_ids.2 ⟨v, h, rfl⟩)
      by_cases hf : f x = true
      · rw [List.filter_cons_of_pos hf, List.map_cons, List.count_cons_of_ne (by simp [hne]), ih]
      · rw [List.filter_cons_of_neg hf, ih]

theorem count_map_left_zero (c : Nat) (L : List (Leaf K)) (p : Nat × Nat) (h : p.1 ≠ c ∨ p.2 ∉ ids L) (f : Leaf K → Bool) :
    ((L.filter f).map (fun s => (c, s.id))).count p = 0 := by
  rw [List.count_eq_zero]
  intro hmem
  obtain ⟨s, hs, rfl⟩ := List.mem_map.1 hmem
  rcases h with h | h
  · exact h rfl
  · exact h (mem_ids.2 ⟨s, (List.mem_filter.1 hs).1, rfl⟩)

theorem count_map_right (c : Nat) (f : Leaf K → Bool) (L : List (Leaf K)) (hn : (ids L).Nodup) (v : Leaf K) (hv : v ∈ L) :
    ((L.filter f).map (fun s => (s.id, c))).count (v.id, c) = if f v then 1 else 0 := by
  rw [← count_map_left c f L hn v hv]
  have : ((L.filter f).map (fun s => (s.id, c))) = ((L.filter f).map (fun s => (c, s.id))).map Prod.swap := by
    simp [List.map_map, Function.comp_def]
  rw [this]
  exact List.count_map_of_injective _ _ Prod.swap_injective (c, v.id)

theorem count_map_right_zero (c : Nat) (L : List (Leaf K)) (p : Nat × Nat) (h : p.2 ≠ c ∨ p.1 ∉ ids L) (f : Leaf K → Bool) :
    ((L.filter f).map (fun s => (s.id, c))).count p = 0 := by
  rw [List.count_eq_zero]
  intro hmem
  obtain ⟨s, hs, rfl⟩ := List.mem_map.1 hmem
  rcases h with h | h
  · exact h rfl
  · exact h (mem_ids.2 ⟨s, (List.mem_filter.1 hs).1, rfl⟩)

theorem count_clear (i : Nat) (p : Nat × Nat) (P : List (Nat × Nat)) :
    (pairsClear i P).count p = if p.1 = i ∨ p.2 = i then 0 else P.count p := by
  unfold pairsClear
  by_cases h : p.1 = i ∨ p.2 = i
  · rw [if_pos h, List.count_eq_zero]
    intro hm
    have := (List.mem_filter.1 hm).2
    rcases h with h | h <;> simp [h] at this
  · rw [if_neg h, List.count_filter]
    rw [not_or] at h
    simp [h.1, h.2]

/-! ## Unlinking and linking -/

theorem mem_clear {i : Nat} {p : Nat × Nat} : p ∈ pairsClear i P ↔ p ∈ P ∧ p.1 ≠ i ∧ p.2 ≠ i := by
  unfold pairsClear; simp [List.mem_filter]

theorem mem_ids_filter {i j : Nat} {L : List (Leaf K)} :
    j ∈ ids (L.filter (fun l => !(l.id == i))) ↔ j ∈ ids L ∧ j ≠ i := by
  constructor
  · intro h
    obtain ⟨l, hl, rfl⟩ := mem_ids.1 h
    have := List.mem_filter.1 hl
    exact ⟨mem_ids.2 ⟨l, this.1, rfl⟩, by simpa using this.2⟩
  · rintro ⟨h, hne⟩
    obtain ⟨l, hl, rfl⟩ := mem_ids.1 h
    exact mem_ids.2 ⟨l, List.mem_filter.2 ⟨hl, by simpa using hne⟩, rfl⟩

theorem mem_filter_ne {i : Nat} {l : Leaf K} {L : List (Leaf K)} :
    l ∈ L.filter (fun l => !(l.id == i)) ↔ l ∈ L ∧ l.id ≠ i := by simp [List.mem_filter]

/-- Removing a shape from whichever tree it is in. -/
theorem Mid.unlink (h : Mid D S st P) (i : Nat) :
    Mid (D.filter (fun l => !(l.id == i))) (S.filter (fun l => !(l.id == i))) st (pairsClear i P) := by
  refine ⟨?_, ?_, ?_, ?_, ?_, ?_, ?_⟩
  · rw [← List.filter_append]
    exact (List.Sublist.map _ List.filter_sublist).nodup h.nd
  · intro l hl; exact h.sd l (mem_filter_ne.1 hl).1
  · intro l hl; exact h.ss l (mem_filter_ne.1 hl).1
  · intro p hp
    obtain ⟨hp, h1, h2⟩ := mem_clear.1 hp
    rw [← List.filter_append, mem_ids_filter, mem_ids_filter]
    obtain ⟨a, b, c⟩ := h.pm p hp
    exact ⟨⟨a, h2⟩, ⟨b, h1⟩, c⟩
  · intro l hl e p hp
    exact h.mv l (mem_filter_ne.1 hl).1 e p (mem_clear.1 hp).1
  · intro u hu v hv hne h1 h2
    rw [mem_filter_ne] at hu hv
    rw [count_clear, count_clear, if_neg (by simp [hu.2, hv.2]), if_neg (by simp [hu.2, hv.2])]
    exact h.dd u hu.1 v hv.1 hne h1 h2
  · intro s hs x hx h1
    rw [mem_filter_ne] at hs hx
    rw [count_clear, if_neg (by simp [hs.2, hx.2])]
    exact h.ds s hs.1 x hx.1 h1

theorem Mid.link (h : Mid D S st P) (l : Leaf K) (hl : l.stamp = st) (hf : l.id ∉ ids (D ++ S)) :
    Mid (l :: D) S st P := by
  refine ⟨?_, ?_, h.ss, ?_, ?_, ?_, ?_⟩
  · rw [List.cons_append, ids_cons, List.nodup_cons]; exact ⟨hf, h.nd⟩
  · intro x hx
    rcases List.mem_cons.1 hx with rfl | hx
    · exact hl.le
    · exact h.sd x hx
  · intro p hp
    obtain ⟨a, b, c⟩ := h.pm p hp
    exact ⟨by rw [ids_cons]; exact List.mem_cons_of_mem _ a,
      by rw [List.cons_append, ids_cons]; exact List.mem_cons_of_mem _ b, c⟩
  · intro x hx e p hp
    rcases List.mem_cons.1 hx with rfl | hx
    · obtain ⟨a, b, c⟩ := h.pm p hp
      refine ⟨fun e' => hf (e' ▸ b), fun e' => hf ?_⟩
      rw [← e', ids_append, List.mem_append]; exact Or.inl a
    · exact h.mv x hx e p hp
  · intro u hu v hv hne h1 h2
    rcases List.mem_cons.1 hu with rfl | hu
    · omega
    rcases List.mem_cons.1 hv with rfl | hv
    · omega
    exact h.dd u hu v hv hne h1 h2
  · intro s hs x hx h1
    rcases List.mem_cons.1 hx with rfl | hx
    · omega
    exact h.ds s hs x hx h1

/-! ## Marking one leaf -/

section mark
variable {root : Tree K} {sr : Option (Tree K)}

/-- Visiting `w` concerns no pair without `w`. -/
theorem mark_other (ht : Tight root) (hts : TightO sr) (hn : (ids root.leaves).Nodup) {w : Leaf K}
    (hw : w ∈ root.leaves) (m : Marks) (p : Nat × Nat) (h : p.1 ≠ w.id ∧ p.2 ≠ w.id) :
    (markLeaf st root sr w m).pairs.count p = m.pairs.count p ∧
    (markLeaf st root sr w m).calls.count p = m.calls.count p := by
  by_cases hst : w.stamp = st
  · obtain ⟨A, B, e⟩ := List.append_of_mem hw
    have k := markLeaf_moved st root sr w m A B hst ht hts hn e p
    simp only [List.filter_filter] at k
    rw [k.1, k.2, count_map_right_zero _ _ _ (Or.inl h.2), count_map_left_zero _ _ _ (Or.inl h.1),
      count_map_right_zero _ _ _ (Or.inl h.2), count_map_left_zero _ _ _ (Or.inl h.1),
      count_map_left_zero _ _ _ (Or.inl h.1)]
    exact ⟨rfl, rfl⟩
  · have k := markLeaf_unmoved st root sr w m hst p
    rw [k.1, k.2, if_neg h.2]
    exact ⟨rfl, rfl⟩

theorem fold_other (ht : Tight root) (hts : TightO sr) (hn : (ids root.leaves).Nodup) (p : Nat × Nat) :
    ∀ (L : List (Leaf K)) (_ : ∀ w ∈ L, w ∈ root.leaves ∧ p.1 ≠ w.id ∧ p.2 ≠ w.id) (m : Marks),
    (L.foldl (fun m l => markLeaf st root sr l m) m).pairs.count p = m.pairs.count p ∧
    (L.foldl (fun m l => markLeaf st root sr l m) m).calls.count p = m.calls.count p
  | [], _, m => ⟨rfl, rfl⟩
  | w :: L, h, m => by
    have hw := h w List.mem_cons_self
    have ih := fold_other ht hts hn p L (fun x hx => h x (List.mem_cons_of_mem _ hx)) (markLeaf st root sr w m)
    have k := mark_other (st := st) ht hts hn hw.1 m p hw.2
    exact ⟨ih.1.trans k.1, ih.2.trans k.2⟩

/-- Pairs that appear when visiting `l`. -/
theorem mark_mem (ht : Tight root) (hts : TightO sr) (hn : (ids root.leaves).Nodup) {l : Leaf K}
    (hl : l ∈ root.leaves) (m : Marks) (p : Nat × Nat) (hp : p ∈ (markLeaf st root sr l m).pairs) :
    p ∈ m.pairs ∨ ((p.1 = l.id ∨ p.2 = l.id) ∧ p.2 ∈ ids root.leaves ∧ p.1 ∈ ids (root.leaves ++ leavesOf sr) ∧
      (p.1 ∈ ids (leavesOf sr) ∨ p.1 ≠ p.2)) := by
  by_cases hst : l.stamp = st
  · obtain ⟨A, B, e⟩ := List.append_of_mem hl
    have k := (markLeaf_moved st root sr l m A B hst ht hts hn e p).1
    have hpos := List.count_pos_iff.2 hp
    rw [k] at hpos
    have hn' := hn
    rw [e, ids_append, ids_cons] at hn'
    have hA : l.id ∉ ids A := fun h => (List.disjoint_of_nodup_append hn') h List.mem_cons_self
    have hB : l.id ∉ ids B := (List.nodup_cons.1 hn'.of_append_right).1
    by_cases h1 : p ∈ m.pairs
    · exact Or.inl h1
    right
    have c1 : m.pairs.count p = 0 := List.count_eq_zero.2 h1
    rw [c1, Nat.zero_add] at hpos
    rcases (show _ ∨ _ ∨ _ by
      rcases Nat.eq_zero_or_pos ((((leavesOf sr).filter (fun s => s.bb.intersects l.bb)).filter
        (fun s => decide (s.stamp < l.stamp))).map (fun s => (s.id, l.id))|>.count p) with h | h
      · rw [h, Nat.zero_add] at hpos
        rcases Nat.eq_zero_or_pos (((B.filter (fun s => s.bb.intersects l.bb)).map (fun s => (l.id, s.id))).count p)
          with h' | h'
        · rw [h', Nat.zero_add] at hpos
          exact Or.inr (Or.inr (List.count_pos_iff.1 hpos))
        · exact Or.inr (Or.inl (List.count_pos_iff.1 h'))
      · exact Or.inl (List.count_pos_iff.1 h)) with h | h | h
    · obtain ⟨s, hs, rfl⟩ := List.mem_map.1 h
      have hs' := (List.mem_filter.1 (List.mem_filter.1 hs).1).1
      have hi : s.id ∈ ids (leavesOf sr) := mem_ids.2 ⟨s, hs', rfl⟩
      exact ⟨Or.inr rfl, mem_ids.2 ⟨l, hl, rfl⟩, by rw [ids_append, List.mem_append]; exact Or.inr hi, Or.inl hi⟩
    · obtain ⟨s, hs, rfl⟩ := List.mem_map.1 h
      have hs' := (List.mem_filter.1 hs).1
      have hi : s.id ∈ ids B := mem_ids.2 ⟨s, hs', rfl⟩
      refine ⟨Or.inl rfl, by rw [e, ids_append, List.mem_append]; exact Or.inr (List.mem_cons_of_mem _ hi), ?_, Or.inr ?_⟩
      · rw [ids_append, List.mem_append]; exact Or.inl (mem_ids.2 ⟨l, hl, rfl⟩)
      · intro e'
        have e'' : l.id = s.id := e'
        exact hB (e'' ▸ hi)
    · obtain ⟨s, hs, rfl⟩ := List.mem_map.1 h
      have hs' := (List.mem_filter.1 (List.mem_filter.1 hs).1).1
      have hi : s.id ∈ ids A := mem_ids.2 ⟨s, hs', rfl⟩
      refine ⟨Or.inr rfl, mem_ids.2 ⟨l, hl, rfl⟩, ?_, Or.inr ?_⟩
      · rw [ids_append, List.mem_append, e, ids_append, List.mem_append]; exact Or.inl (Or.inl hi)
      · intro e'
        have e'' : s.id = l.id := e'
        exact hA (e'' ▸ hi)
  · left
    rw [(markLeaf_unmoved st root sr l m hst p).1] at hp
    exact hp

theorem fold_mem (ht : Tight root) (hts : TightO sr) (hn : (ids root.leaves).Nodup) (p : Nat × Nat) :
    ∀ (L : List (Leaf K)) (_ : ∀ w ∈ L, w ∈ root.leaves) (m : Marks),
    p ∈ (L.foldl (fun m l => markLeaf st root sr l m) m).pairs →
    p ∈ m.pairs ∨ (p.2 ∈ ids root.leaves ∧ p.1 ∈ ids (root.leaves ++ leavesOf sr) ∧
      (p.1 ∈ ids (leavesOf sr) ∨ p.1 ≠ p.2))
  | [], _, m, hp => Or.inl hp
  | w :: L, h, m, hp => by
    rcases fold_mem ht hts hn p L (fun x hx => h x (List.mem_cons_of_mem _ hx)) (markLeaf st root sr w m) hp with h' | h'
    · rcases mark_mem ht hts hn (h w List.mem_cons_self) m p h' with h'' | h''
      · exact Or.inl h''
      · exact Or.inr h''.2
    · exact Or.inr h'

/-- Visiting the earlier (`u`) and the later (`v`) of two dynamic leaves, alone. -/
theorem visit_first (ht : Tight root) (hts : TightO sr) (hn : (ids (root.leaves ++ leavesOf sr)).Nodup) {u v : Leaf K}
    {A B : List (Leaf K)} (e : root.leaves = A ++ u :: B) (hv : v ∈ B) (m : Marks) :
    (u.stamp = st →
      (markLeaf st root sr u m).pairs.count (u.id, v.id) = m.pairs.count (u.id, v.id) + meet u v ∧
      (markLeaf st root sr u m).pairs.count (v.id, u.id) = m.pairs.count (v.id, u.id) ∧
      (markLeaf st root sr u m).calls.count (u.id, v.id) = m.calls.count (u.id, v.id) ∧
      (markLeaf st root sr u m).calls.count (v.id, u.id) = m.calls.count (v.id, u.id)) ∧
    (u.stamp ≠ st →
      (markLeaf st root sr u m).pairs = m.pairs ∧
      (markLeaf st root sr u m).calls.count (u.id, v.id) = m.calls.count (u.id, v.id) ∧
      (markLeaf st root sr u m).calls.count (v.id, u.id) = m.calls.count (v.id, u.id) + m.pairs.count (v.id, u.id)) := by
  have hn1 : (ids root.leaves).Nodup := by rw [ids_append] at hn; exact hn.of_append_left
  have hn' := hn1
  rw [e, ids_append, ids_cons] at hn'
  have hvB : v.id ∈ ids B := mem_ids.2 ⟨v, hv, rfl⟩
  have huB : u.id ∉ ids B := (List.nodup_cons.1 hn'.of_append_right).1
  have hne : v.id ≠ u.id := fun h => huB (h ▸ hvB)
  have hvA : v.id ∉ ids A := fun h => (List.disjoint_of_nodup_append hn') h (List.mem_cons_of_mem _ hvB)
  have hvD : v.id ∈ ids root.leaves := by
    rw [e, ids_append, List.mem_append]; exact Or.inr (List.mem_cons_of_mem _ hvB)
  have hvS : v.id ∉ ids (leavesOf sr) := by
    rw [ids_append] at hn
    exact fun h => (List.disjoint_of_nodup_append hn) hvD h
  constructor
  · intro hst
    have k := fun p => markLeaf_moved st root sr u m A B hst ht hts hn1 e p
    simp only [List.filter_filter] at k
    refine ⟨?_, ?_, ?_, ?_⟩
    · rw [(k _).1, count_map_right_zero _ _ _ (Or.inl hne), count_map_right_zero _ _ _ (Or.inl hne),
        count_map_left _ _ B (List.nodup_cons.1 hn'.of_append_right).2 v hv, meet_symm]
      rfl
    · rw [(k _).1, count_map_right_zero _ _ _ (Or.inr hvS), count_map_right_zero _ _ _ (Or.inr hvA),
        count_map_left_zero _ _ _ (Or.inl hne)] <;> rfl
    · rw [(k _).2, count_map_left_zero _ _ _ (Or.inr hvS), count_map_left_zero _ _ _ (Or.inr hvA)] <;> rfl
    · rw [(k _).2, count_map_left_zero _ _ _ (Or.inl hne), count_map_left_zero _ _ _ (Or.inl hne)] <;> rfl
  · intro hst
    have k := fun p => markLeaf_unmoved st root sr u m hst p
    refine ⟨(k (0,0)).1, ?_, ?_⟩
    · rw [(k _).2, if_neg hne]; rfl
    · rw [(k _).2, if_pos rfl] <;> rfl

theorem visit_second (ht : Tight root) (hts : TightO sr) (hn : (ids (root.leaves ++ leavesOf sr)).Nodup) {u v : Leaf K}
    {A B : List (Leaf K)} (e : root.leaves = A ++ v :: B) (hu : u ∈ A) (m : Marks) :
    (v.stamp = st →
      (markLeaf st root sr v m).pairs.count (u.id, v.id) =
        m.pairs.count (u.id, v.id) + (if u.stamp < st then meet u v else 0) ∧
      (markLeaf st root sr v m).pairs.count (v.id, u.id) = m.pairs.count (v.id, u.id) ∧
      (markLeaf st root sr v m).calls.count (u.id, v.id) = m.calls.count (u.id, v.id) ∧
      (markLeaf st root sr v m).calls.count (v.id, u.id) = m.calls.count (v.id, u.id) + meet u v) ∧
    (v.stamp ≠ st →
      (markLeaf st root sr v m).pairs = m.pairs ∧
      (markLeaf st root sr v m).calls.count (u.id, v.id) = m.calls.count (u.id, v.id) + m.pairs.count (u.id, v.id) ∧
      (markLeaf st root sr v m).calls.count (v.id, u.id) = m.calls.count (v.id, u.id)) := by
  have hn1 : (ids root.leaves).Nodup := by rw [ids_append] at hn; exact hn.of_append_left
  have hn' := hn1
  rw [e, ids_append, ids_cons] at hn'
  have huA : u.id ∈ ids A := mem_ids.2 ⟨u, hu, rfl⟩
  have hvA : v.id ∉ ids A := fun h => (List.disjoint_of_nodup_append hn') h List.mem_cons_self
  have hne : u.id ≠ v.id := fun h => hvA (h ▸ huA)
  have huB : u.id ∉ ids B := fun h => (List.disjoint_of_nodup_append hn') huA (List.mem_cons_of_mem _ h)
  have huD : u.id ∈ ids root.leaves := by
    rw [e, ids_append, List.mem_append]; exact Or.inl huA
  have huS : u.id ∉ ids (leavesOf sr) := by
    rw [ids_append] at hn
    exact fun h => (List.disjoint_of_nodup_append hn) huD h
  constructor
  · intro hst
    have k := fun p => markLeaf_moved st root sr v m A B hst ht hts hn1 e p
    simp only [List.filter_filter] at k
    refine ⟨?_, ?_, ?_, ?_⟩
    · rw [(k _).1, count_map_right_zero _ _ _ (Or.inr huS), count_map_left_zero _ _ _ (Or.inl hne),
        count_map_right _ _ A hn'.of_append_left u hu]
      unfold meet
      rw [hst]
      by_cases h1 : u.stamp < st <;> simp [h1]
    · rw [(k _).1, count_map_right_zero _ _ _ (Or.inl hne), count_map_right_zero _ _ _ (Or.inl hne),
        count_map_left_zero _ _ _ (Or.inr huB)] <;> rfl
    · rw [(k _).2, count_map_left_zero _ _ _ (Or.inl hne), count_map_left_zero _ _ _ (Or.inl hne)] <;> rfl
    · rw [(k _).2, count_map_left_zero _ _ _ (Or.inr huS), count_map_left _ _ A hn'.of_append_left u hu]
      rfl
  · intro hst
    have k := fun p => markLeaf_unmoved st root sr v m hst p
    refine ⟨(k (0,0)).1, ?_, ?_⟩
    · rw [(k _).2, if_pos rfl] <;> rfl
    · rw [(k _).2, if_neg hne]; rfl

/-- Visiting a dynamic leaf, seen from a static leaf. -/
theorem visit_static (ht : Tight root) (hts : TightO sr) (hn : (ids (root.leaves ++ leavesOf sr)).Nodup) {s x : Leaf K}
    (hx : x ∈ root.leaves) (hs : s ∈ leavesOf sr) (hss : s.stamp < st) (m : Marks) :
    (x.stamp = st →
      (markLeaf st root sr x m).pairs.count (s.id, x.id) = m.pairs.count (s.id, x.id) + meet s x ∧
      (markLeaf st root sr x m).calls.count (s.id, x.id) = m.calls.count (s.id, x.id) ∧
      (markLeaf st root sr x m).calls.count (x.id, s.id) = m.calls.count (x.id, s.id) + meet s x) ∧
    (x.stamp ≠ st →
      (markLeaf st root sr x m).pairs = m.pairs ∧
      (markLeaf st root sr x m).calls.count (s.id, x.id) = m.calls.count (s.id, x.id) + m.pairs.count (s.id, x.id) ∧
      (markLeaf st root sr x m).calls.count (x.id, s.id) = m.calls.count (x.id, s.id)) := by
  rw [ids_append] at hn
  have hn1 : (ids root.leaves).Nodup := hn.of_append_left
  have hd := List.disjoint_of_nodup_append hn
  have hsS : s.id ∈ ids (leavesOf sr) := mem_ids.2 ⟨s, hs, rfl⟩
  have hsD : s.id ∉ ids root.leaves := fun h => hd h hsS
  have hne : s.id ≠ x.id := fun h => hsD (h ▸ mem_ids.2 ⟨x, hx, rfl⟩)
  obtain ⟨A, B, e⟩ := List.append_of_mem hx
  have hsA : s.id ∉ ids A := fun h => hsD (by rw [e, ids_append, List.mem_append]; exact Or.inl h)
  constructor
  · intro hst
    have k := fun p => markLeaf_moved st root sr x m A B hst ht hts hn1 e p
    simp only [List.filter_filter] at k
    refine ⟨?_, ?_, ?_⟩
    · rw [(k _).1, count_map_right _ _ _ hn.of_append_right s hs, count_map_left_zero _ _ _ (Or.inl hne),
        count_map_right_zero _ _ _ (Or.inr hsA)]
      unfold meet
      simp [hst, hss]
    · rw [(k _).2, count_map_left_zero _ _ _ (Or.inl hne), count_map_left_zero _ _ _ (Or.inl hne)] <;> rfl
    · rw [(k _).2, count_map_left _ _ _ hn.of_append_right s hs, count_map_left_zero _ _ _ (Or.inr hsA)]
      rfl
  · intro hst
    have k := fun p => markLeaf_unmoved st root sr x m hst p
    refine ⟨(k (0,0)).1, ?_, ?_⟩
    · rw [(k _).2, if_pos rfl] <;> rfl
    · rw [(k _).2, if_neg hne]; rfl

end mark

/-! ## `ReindexQuery`: exactly one call per pair of leaves that meet -/

section query
variable {root : Tree K} {sr : Option (Tree K)}

theorem Mid.count_moved (h : Mid D S st P) {l : Leaf K} (hl : l ∈ D) (hs : l.stamp = st) (p : Nat × Nat)
    (hp : p.1 = l.id ∨ p.2 = l.id) : P.count p = 0 := by
  rw [List.count_eq_zero]
  intro hm
  have := h.mv l hl hs p hm
  rcases hp with hp | hp
  · exact this.1 hp
  · exact this.2 hp

/-- The counts at the end of `MarkSubtree` for two dynamic leaves in tree order. -/
theorem mark_all_dyn (hm : Mid root.leaves (leavesOf sr) st P) (ht : Tight root) (hts : TightO sr) {u v : Leaf K}
    {A B E : List (Leaf K)} (e : root.leaves = A ++ u :: (B ++ v :: E)) (m : Marks)
    (hmP : m = ⟨P, []⟩) :
    let m' := markSubtree st root sr root m
    m'.pairs.count (u.id, v.id) + m'.pairs.count (v.id, u.id) = meet u v ∧
    m'.calls.count (u.id, v.id) + m'.calls.count (v.id, u.id) = meet u v := by
  intro m'
  have hn1 : (ids root.leaves).Nodup := by have := hm.nd; rw [ids_append] at this; exact this.of_append_left
  have hn' := hn1
  rw [e] at hn'
  simp only [ids_append, ids_cons] at hn'
  have huA : u.id ∉ ids A := fun h => (List.disjoint_of_nodup_append hn') h List.mem_cons_self
  have hvA : v.id ∉ ids A := fun h => (List.disjoint_of_nodup_append hn') h (by simp)
  have h2 := List.nodup_cons.1 hn'.of_append_right
  have huB : u.id ∉ ids B := fun h => h2.1 (List.mem_append_left _ h)
  have huv : u.id ≠ v.id := fun h => h2.1 (by simp [h])
  have huE : u.id ∉ ids E := fun h => h2.1 (List.mem_append_right _ (List.mem_cons_of_mem _ h))
  have hvB : v.id ∉ ids B := fun h => (List.disjoint_of_nodup_append h2.2) h List.mem_cons_self
  have hvE : v.id ∉ ids E := (List.nodup_cons.1 h2.2.of_append_right).1
  have memA : ∀ w ∈ A, w ∈ root.leaves := fun w hw => by rw [e]; simp [hw]
  have memB : ∀ w ∈ B, w ∈ root.leaves := fun w hw => by rw [e]; simp [hw]
  have memE : ∀ w ∈ E, w ∈ root.leaves := fun w hw => by rw [e]; simp [hw]
  have hu : u ∈ root.leaves := by rw [e]; simp
  have hv : v ∈ root.leaves := by rw [e]; simp
  have nid : ∀ {L : List (Leaf K)} {i : Nat}, i ∉ ids L → ∀ w ∈ L, i ≠ w.id :=
    fun h w hw e' => h (e' ▸ mem_ids.2 ⟨w, hw, rfl⟩)
  -- the five stages
  have hm' : m' = (E.foldl (fun m l => markLeaf st root sr l m) (markLeaf st root sr v
      (B.foldl (fun m l => markLeaf st root sr l m) (markLeaf st root sr u
        (A.foldl (fun m l => markLeaf st root sr l m) m))))) := by
    change markSubtree st root sr root m = _
    rw [markSubtree_eq]
    conv_lhs => rw [e]
    simp [List.foldl_append]
  have sA := fun p (h : p.1 ∉ ids A ∧ p.2 ∉ ids A) => fold_other (st := st) ht hts hn1 p A
    (fun w hw => ⟨memA w hw, nid h.1 w hw, nid h.2 w hw⟩) m
  set m1 := A.foldl (fun m l => markLeaf st root sr l m) m with hm1
  have vu := visit_first (st := st) ht hts hm.nd (v := v) e (by simp) m1
  set m2 := markLeaf st root sr u m1 with hm2
  have sB := fun p (h : p.1 ∉ ids B ∧ p.2 ∉ ids B) => fold_other (st := st) ht hts hn1 p B
    (fun w hw => ⟨memB w hw, nid h.1 w hw, nid h.2 w hw⟩) m2
  set m3 := B.foldl (fun m l => markLeaf st root sr l m) m2 with hm3
  have e' : root.leaves = (A ++ u :: B) ++ v :: E := by rw [e]; simp
  have vv := visit_second (st := st) ht hts hm.nd (u := u) e' (by simp) m3
  set m4 := markLeaf st root sr v m3 with hm4
  have sE := fun p (h : p.1 ∉ ids E ∧ p.2 ∉ ids E) => fold_other (st := st) ht hts hn1 p E
    (fun w hw => ⟨memE w hw, nid h.1 w hw, nid h.2 w hw⟩) m4
  rw [← hm'] at sE
  have a1 := sA (u.id, v.id) ⟨huA, hvA⟩
  have a2 := sA (v.id, u.id) ⟨hvA, huA⟩
  have b1 := sB (u.id, v.id) ⟨huB, hvB⟩
  have b2 := sB (v.id, u.id) ⟨hvB, huB⟩
  have c1 := sE (u.id, v.id) ⟨huE, hvE⟩
  have c2 := sE (v.id, u.id) ⟨hvE, huE⟩
  rw [hmP] at a1 a2
  simp only [List.count_nil] at a1 a2
  rw [c1.1, c1.2, c2.1, c2.2]
  have su := hm.sd u hu
  have sv := hm.sd v hv
  by_cases hsu : u.stamp = st
  · have z1 := hm.count_moved hu hsu (u.id, v.id) (Or.inl rfl)
    have z2 := hm.count_moved hu hsu (v.id, u.id) (Or.inr rfl)
    obtain ⟨q1, q2, q3, q4⟩ := vu.1 hsu
    by_cases hsv : v.stamp = st
    · obtain ⟨r1, r2, r3, r4⟩ := vv.1 hsv
      rw [if_neg (by omega)] at r1
      omega
    · obtain ⟨r1, r2, r3⟩ := vv.2 hsv
      rw [r1]
      omega
  · obtain ⟨q1, q2, q3⟩ := vu.2 hsu
    have hsu' : u.stamp < st := lt_of_le_of_ne su hsu
    rw [q1] at b1 b2
    by_cases hsv : v.stamp = st
    · have z1 := hm.count_moved hv hsv (u.id, v.id) (Or.inr rfl)
      have z2 := hm.count_moved hv hsv (v.id, u.id) (Or.inl rfl)
      obtain ⟨r1, r2, r3, r4⟩ := vv.1 hsv
      rw [if_pos hsu'] at r1
      omega
    · have hd := hm.dd u hu v hv huv hsu' (lt_of_le_of_ne sv hsv)
      obtain ⟨r1, r2, r3⟩ := vv.2 hsv
      rw [r1]
      omega

theorem mark_all_static (hm : Mid root.leaves (leavesOf sr) st P) (ht : Tight root) (hts : TightO sr) {s x : Leaf K}
    (hs : s ∈ leavesOf sr) (hx : x ∈ root.leaves) :
    let m' := markSubtree st root sr root ⟨P, []⟩
    m'.pairs.count (s.id, x.id) = meet s x ∧
    m'.calls.count (s.id, x.id) + m'.calls.count (x.id, s.id) = meet s x := by
  intro m'
  have hnd := hm.nd
  rw [ids_append] at hnd
  have hn1 : (ids root.leaves).Nodup := hnd.of_append_left
  obtain ⟨A, B, e⟩ := List.append_of_mem hx
  have hn' := hn1
  rw [e, ids_append, ids_cons] at hn'
  have hsS : s.id ∈ ids (leavesOf sr) := mem_ids.2 ⟨s, hs, rfl⟩
  have hsD : ∀ w ∈ root.leaves, s.id ≠ w.id := fun w hw h =>
    (List.disjoint_of_nodup_append hnd) (mem_ids.2 ⟨w, hw, rfl⟩) (h ▸ hsS)
  have hxA : x.id ∉ ids A := fun h => (List.disjoint_of_nodup_append hn') h List.mem_cons_self
  have hxB : x.id ∉ ids B := (List.nodup_cons.1 hn'.of_append_right).1
  have memA : ∀ w ∈ A, w ∈ root.leaves := fun w hw => by rw [e]; simp [hw]
  have memB : ∀ w ∈ B, w ∈ root.leaves := fun w hw => by rw [e]; simp [hw]
  have nid : ∀ {L : List (Leaf K)} {i : Nat}, i ∉ ids L → ∀ w ∈ L, i ≠ w.id :=
    fun h w hw e' => h (e' ▸ mem_ids.2 ⟨w, hw, rfl⟩)
  have hm' : m' = (B.foldl (fun m l => markLeaf st root sr l m) (markLeaf st root sr x
        (A.foldl (fun m l => markLeaf st root sr l m) ⟨P, []⟩))) := by
    change markSubtree st root sr root _ = _
    rw [markSubtree_eq]
    conv_lhs => rw [e]
    simp [List.foldl_append]
  have a1 := fold_other (st := st) ht hts hn1 (s.id, x.id) A
    (fun w hw => ⟨memA w hw, hsD w (memA w hw), nid hxA w hw⟩) ⟨P, []⟩
  have a2 := fold_other (st := st) ht hts hn1 (x.id, s.id) A
    (fun w hw => ⟨memA w hw, nid hxA w hw, hsD w (memA w hw)⟩) ⟨P, []⟩
  set m1 := A.foldl (fun m l => markLeaf st root sr l m) ⟨P, []⟩ with hm1
  have vx := visit_static (st := st) ht hts hm.nd hx hs (hm.ss s hs) m1
  set m2 := markLeaf st root sr x m1 with hm2
  have b1 := fold_other (st := st) ht hts hn1 (s.id, x.id) B
    (fun w hw => ⟨memB w hw, hsD w (memB w hw), nid hxB w hw⟩) m2
  have b2 := fold_other (st := st) ht hts hn1 (x.id, s.id) B
    (fun w hw => ⟨memB w hw, nid hxB w hw, hsD w (memB w hw)⟩) m2
  rw [← hm'] at b1 b2
  simp only [List.count_nil] at a1 a2
  by_cases hst : x.stamp = st
  · have z1 := hm.count_moved hx hst (s.id, x.id) (Or.inr rfl)
    obtain ⟨q1, q2, q3⟩ := vx.1 hst
    omega
  · obtain ⟨q1, q2, q3⟩ := vx.2 hst
    rw [q1] at b1
    have hd := hm.ds s hs x hx (lt_of_le_of_ne (hm.sd x hx) hst)
    omega

/-- `ReindexQuery` after the leaf updates: the invariant holds at the next stamp. -/
theorem mark_all_inv (hm : Mid root.leaves (leavesOf sr) st P) (ht : Tight root) (hts : TightO sr) :
    Inv root.leaves (leavesOf sr) (st + 1) (markSubtree st root sr root ⟨P, []⟩).pairs := by
  have hnd := hm.nd
  rw [ids_append] at hnd
  have hn1 : (ids root.leaves).Nodup := hnd.of_append_left
  refine ⟨hm.nd, fun l hl => Nat.lt_succ_of_le (hm.sd l hl), fun l hl => Nat.lt_succ_of_lt (hm.ss l hl), ?_, ?_, ?_⟩
  · intro p hp
    rw [markSubtree_eq] at hp
    rcases fold_mem ht hts hn1 p root.leaves (fun w hw => hw) _ hp with h | ⟨h1, h2, h3⟩
    · exact hm.pm p h
    · refine ⟨h1, h2, ?_⟩
      rcases h3 with h3 | h3
      · intro e
        exact (List.disjoint_of_nodup_append hnd) h1 (e ▸ h3)
      · exact h3
  · intro u hu v hv hne
    obtain ⟨A, B, e⟩ := List.append_of_mem hu
    rw [e, List.mem_append] at hv
    rcases hv with hv | hv
    · obtain ⟨A', B', e'⟩ := List.append_of_mem hv
      have e2 : root.leaves = A' ++ v :: (B' ++ u :: B) := by rw [e, e']; simp
      have k := (mark_all_dyn hm ht hts e2 _ rfl).1
      rw [Nat.add_comm, meet_symm]; exact k
    · rcases List.mem_cons.1 hv with rfl | hv
      · exact absurd rfl hne
      · obtain ⟨A', B', e'⟩ := List.append_of_mem hv
        rw [e'] at e
        exact (mark_all_dyn hm ht hts e _ rfl).1
  · intro s hs x hx
    exact (mark_all_static hm ht hts hs hx).1

/-- Number of calls for two dynamic leaves. -/
theorem calls_dyn (hm : Mid root.leaves (leavesOf sr) st P) (ht : Tight root) (hts : TightO sr) {u v : Leaf K}
    (hu : u ∈ root.leaves) (hv : v ∈ root.leaves) (hne : u.id ≠ v.id) :
    (markSubtree st root sr root ⟨P, []⟩).calls.count (u.id, v.id) +
    (markSubtree st root sr root ⟨P, []⟩).calls.count (v.id, u.id) = meet u v := by
  obtain ⟨A, B, e⟩ := List.append_of_mem hu
  rw [e, List.mem_append] at hv
  rcases hv with hv | hv
  · obtain ⟨A', B', e'⟩ := List.append_of_mem hv
    have e2 : root.leaves = A' ++ v :: (B' ++ u :: B) := by rw [e, e']; simp
    have k := (mark_all_dyn hm ht hts e2 _ rfl).2
    rw [Nat.add_comm, meet_symm]; exact k
  · rcases List.mem_cons.1 hv with rfl | hv
    · exact absurd rfl hne
    · obtain ⟨A', B', e'⟩ := List.append_of_mem hv
      rw [e'] at e
      exact (mark_all_dyn hm ht hts e _ rfl).2

theorem calls_static (hm : Mid root.leaves (leavesOf sr) st P) (ht : Tight root) (hts : TightO sr) {s x : Leaf K}
    (hs : s ∈ leavesOf sr) (hx : x ∈ root.leaves) :
    (markSubtree st root sr root ⟨P, []⟩).calls.count (s.id, x.id) +
    (markSubtree st root sr root ⟨P, []⟩).calls.count (x.id, s.id) = meet s x :=
  (mark_all_static hm ht hts hs hx).2

/-- The only calls are between two different dynamic leaves or a dynamic and a static leaf. -/
theorem calls_mem (hm : Mid root.leaves (leavesOf sr) st P) (ht : Tight root) (hts : TightO sr) (p : Nat × Nat)
    (hp : p ∈ (markSubtree st root sr root ⟨P, []⟩).calls) :
    p.1 ≠ p.2 ∧ p.1 ∈ ids (root.leaves ++ leavesOf sr) ∧ p.2 ∈ ids (root.leaves ++ leavesOf sr) ∧
      (p.1 ∈ ids root.leaves ∨ p.2 ∈ ids root.leaves) := by
  have hnd := hm.nd
  rw [ids_append] at hnd
  have hn1 : (ids root.leaves).Nodup := hnd.of_append_left
  have good : ∀ q : Nat × Nat, (q.2 ∈ ids root.leaves ∧ q.1 ∈ ids (root.leaves ++ leavesOf sr) ∧
      (q.1 ∈ ids (leavesOf sr) ∨ q.1 ≠ q.2)) → q.2 ∈ ids root.leaves ∧ q.1 ∈ ids (root.leaves ++ leavesOf sr) ∧ q.1 ≠ q.2 := by
    rintro q ⟨h1, h2, h3⟩
    refine ⟨h1, h2, ?_⟩
    rcases h3 with h3 | h3
    · intro e
      exact (List.disjoint_of_nodup_append hnd) h1 (e ▸ h3)
    · exact h3
  have key : ∀ (L : List (Leaf K)) (_ : ∀ w ∈ L, w ∈ root.leaves) (m : Marks)
      (_ : ∀ q ∈ m.pairs, q.2 ∈ ids root.leaves ∧ q.1 ∈ ids (root.leaves ++ leavesOf sr) ∧ q.1 ≠ q.2),
      p ∈ (L.foldl (fun m l => markLeaf st root sr l m) m).calls → p ∈ m.calls ∨
      (p.1 ≠ p.2 ∧ p.1 ∈ ids (root.leaves ++ leavesOf sr) ∧ p.2 ∈ ids (root.leaves ++ leavesOf sr) ∧
      (p.1 ∈ ids root.leaves ∨ p.2 ∈ ids root.leaves)) := by
    intro L
    induction L with
    | nil => intro _ m _ h; exact Or.inl h
    | cons w L ih =>
      intro hL m hq h
      have hw := hL w List.mem_cons_self
      rcases ih (fun x hx => hL x (List.mem_cons_of_mem _ hx)) (markLeaf st root sr w m) (by
        intro q hq'
        rcases mark_mem ht hts hn1 hw m q hq' with h | h
        · exact hq q h
        · exact good q h.2) h with h' | h'
      · by_cases hst : w.stamp = st
        · obtain ⟨A, B, e⟩ := List.append_of_mem hw
          have k := (markLeaf_moved st root sr w m A B hst ht hts hn1 e p).2
          have hpos := List.count_pos_iff.2 h'
          rw [k] at hpos
          by_cases h1 : p ∈ m.calls
          · exact Or.inl h1
          right
          rw [List.count_eq_zero.2 h1, Nat.zero_add] at hpos
          have hwD : w.id ∈ ids root.leaves := mem_ids.2 ⟨w, hw, rfl⟩
          have hwDS : w.id ∈ ids (root.leaves ++ leavesOf sr) := by rw [ids_append]; exact List.mem_append_left _ hwD
          rcases (show _ ∨ _ by
            rcases Nat.eq_zero_or_pos ((((leavesOf sr).filter (fun s => s.bb.intersects w.bb)).map
              (fun s => (w.id, s.id))).count p) with h2 | h2
            · rw [h2, Nat.zero_add] at hpos; exact Or.inr (List.count_pos_iff.1 hpos)
            · exact Or.inl (List.count_pos_iff.1 h2)) with h2 | h2
          · obtain ⟨s, hs, rfl⟩ := List.mem_map.1 h2
            have hs' : s.id ∈ ids (leavesOf sr) := mem_ids.2 ⟨s, (List.mem_filter.1 hs).1, rfl⟩
            refine ⟨?_, hwDS, by rw [ids_append]; exact List.mem_append_right _ hs', Or.inl hwD⟩
            intro e'
            have e'' : w.id = s.id := e'
            exact (List.disjoint_of_nodup_append hnd) hwD (e'' ▸ hs')
          · obtain ⟨s, hs, rfl⟩ := List.mem_map.1 h2
            have hsA : s.id ∈ ids A := mem_ids.2 ⟨s, (List.mem_filter.1 hs).1, rfl⟩
            have hs' : s.id ∈ ids root.leaves := by rw [e, ids_append]; exact List.mem_append_left _ hsA
            refine ⟨?_, hwDS, by rw [ids_append]; exact List.mem_append_left _ hs', Or.inl hwD⟩
            intro e'
            have e'' : w.id = s.id := e'
            rw [e, ids_append, ids_cons] at hn1
            exact (List.disjoint_of_nodup_append hn1) hsA (e'' ▸ List.mem_cons_self)
        · have k := (markLeaf_unmoved st root sr w m hst p).2
          have hpos := List.count_pos_iff.2 h'
          rw [k] at hpos
          by_cases h1 : p ∈ m.calls
          · exact Or.inl h1
          right
          rw [List.count_eq_zero.2 h1, Nat.zero_add] at hpos
          split at hpos
          · obtain ⟨a, b, c⟩ := hq p (List.count_pos_iff.1 hpos)
            exact ⟨c, b, by rw [ids_append]; exact List.mem_append_left _ a, Or.inr a⟩
          · omega
      · exact Or.inr h'
  rw [markSubtree_eq] at hp
  rcases key root.leaves (fun w hw => hw) _ hm.pm hp with h | h
  · simp at h
  · exact h

/-! ## `LeafAddPairs` -/

/-- Adding the pairs of a single new dynamic leaf. -/
theorem mark_one_inv (hm : Mid root.leaves (leavesOf sr) st P) (ht : Tight root) (hts : TightO sr) {l : Leaf K}
    (hl : l ∈ root.leaves) (hst : l.stamp = st) (ho : ∀ x ∈ root.leaves, x.id ≠ l.id → x.stamp < st) :
    Inv root.leaves (leavesOf sr) (st + 1) (markLeaf st root sr l ⟨P, []⟩).pairs := by
  have hnd := hm.nd
  rw [ids_append] at hnd
  have hn1 : (ids root.leaves).Nodup := hnd.of_append_left
  have inj : ∀ x ∈ root.leaves, x.id = l.id → x = l := fun x hx e => List.inj_on_of_nodup_map hn1 hx hl e
  have one : ∀ v ∈ root.leaves, v.id ≠ l.id →
      (markLeaf st root sr l ⟨P, []⟩).pairs.count (l.id, v.id) +
      (markLeaf st root sr l ⟨P, []⟩).pairs.count (v.id, l.id) = meet l v := by
    intro v hv hne
    have z1 := hm.count_moved hl hst (l.id, v.id) (Or.inl rfl)
    have z2 := hm.count_moved hl hst (v.id, l.id) (Or.inr rfl)
    obtain ⟨A, B, e⟩ := List.append_of_mem hl
    have hv' := hv
    rw [e, List.mem_append] at hv
    rcases hv with hv | hv
    · obtain ⟨q1, q2, _⟩ := (visit_second (st := st) ht hts hm.nd (u := v) e hv ⟨P, []⟩).1 hst
      rw [if_pos (ho v hv' hne), meet_symm] at q1
      rw [q1, q2]
      dsimp only
      omega
    · rcases List.mem_cons.1 hv with rfl | hv
      · exact absurd rfl hne
      · obtain ⟨q1, q2, _⟩ := (visit_first (st := st) ht hts hm.nd (v := v) e hv ⟨P, []⟩).1 hst
        rw [q1, q2]
        dsimp only
        omega
  refine ⟨hm.nd, fun l hl => Nat.lt_succ_of_le (hm.sd l hl), fun l hl => Nat.lt_succ_of_lt (hm.ss l hl), ?_, ?_, ?_⟩
  · intro p hp
    rcases mark_mem ht hts hn1 hl _ p hp with h | ⟨_, h1, h2, h3⟩
    · exact hm.pm p h
    · refine ⟨h1, h2, ?_⟩
      rcases h3 with h3 | h3
      · intro e
        exact (List.disjoint_of_nodup_append hnd) h1 (e ▸ h3)
      · exact h3
  · intro u hu v hv hne
    by_cases h1 : u.id = l.id
    · obtain rfl := inj u hu h1
      exact one v hv (Ne.symm hne)
    · by_cases h2 : v.id = l.id
      · obtain rfl := inj v hv h2
        rw [Nat.add_comm, meet_symm]
        exact one u hu hne
      · have k1 := mark_other (st := st) ht hts hn1 hl ⟨P, []⟩ (u.id, v.id) ⟨h1, h2⟩
        have k2 := mark_other (st := st) ht hts hn1 hl ⟨P, []⟩ (v.id, u.id) ⟨h2, h1⟩
        rw [k1.1, k2.1]
        exact hm.dd u hu v hv hne (ho u hu h1) (ho v hv h2)
  · intro s hs x hx
    by_cases h1 : x.id = l.id
    · obtain rfl := inj x hx h1
      have q := ((visit_static (st := st) ht hts hm.nd hx hs (hm.ss s hs) ⟨P, []⟩).1 hst).1
      rw [q, hm.count_moved hx hst (s.id, x.id) (Or.inr rfl), Nat.zero_add]
    · have hsl : s.id ≠ l.id := fun e => (List.disjoint_of_nodup_append hnd) (mem_ids.2 ⟨l, hl, rfl⟩)
        (e ▸ mem_ids.2 ⟨s, hs, rfl⟩)
      rw [(mark_other (st := st) ht hts hn1 hl ⟨P, []⟩ (s.id, x.id) ⟨hsl, h1⟩).1]
      exact hm.ds s hs x hx (ho x hx h1)

/-- Adding a new static leaf and its pairs with all dynamic leaves. -/
theorem mark_stat_inv (h : Inv root.leaves S st P) (ht : Tight root) {l : Leaf K} (hst : l.stamp = st)
    (hf : l.id ∉ ids (root.leaves ++ S)) :
    Inv root.leaves (l :: S) (st + 1) (markLeafQuery l true root ⟨P, []⟩).pairs := by
  have hnd := h.nd
  rw [ids_append] at hnd
  have hn1 : (ids root.leaves).Nodup := hnd.of_append_left
  have hlD : l.id ∉ ids root.leaves := fun e => hf (by rw [ids_append]; exact List.mem_append_left _ e)
  have cnt := fun p => (hits_pairs_left l p (root.leaves.filter (fun s => s.bb.intersects l.bb)) ⟨P, []⟩).1
  rw [← markLeafQuery_eq l true root ht] at cnt
  have mem : ∀ p ∈ (markLeafQuery l true root ⟨P, []⟩).pairs, p ∈ P ∨ (p.1 = l.id ∧ p.2 ∈ ids root.leaves) := by
    intro p hp
    have hpos := List.count_pos_iff.2 hp
    rw [cnt] at hpos
    by_cases h1 : p ∈ P
    · exact Or.inl h1
    · have z : List.count p (Marks.pairs ⟨P, []⟩) = 0 := List.count_eq_zero.2 h1
      rw [z, Nat.zero_add] at hpos
      obtain ⟨s, hs, rfl⟩ := List.mem_map.1 (List.count_pos_iff.1 hpos)
      exact Or.inr ⟨rfl, mem_ids.2 ⟨s, (List.mem_filter.1 hs).1, rfl⟩⟩
  refine ⟨?_, fun l hl => Nat.lt_succ_of_lt (h.sd l hl), ?_, ?_, ?_, ?_⟩
  · rw [ids_append, ids_cons]
    refine (List.perm_middle.nodup_iff).2 (List.nodup_cons.2 ⟨?_, ?_⟩)
    · rw [← ids_append]; exact hf
    · exact hnd
  · intro x hx
    rcases List.mem_cons.1 hx with rfl | hx
    · omega
    · exact Nat.lt_succ_of_lt (h.ss x hx)
  · intro p hp
    rcases mem p hp with h1 | ⟨h1, h2⟩
    · obtain ⟨a, b, c⟩ := h.pm p h1
      refine ⟨a, ?_, c⟩
      rw [ids_append, ids_cons]
      rw [ids_append] at b
      rcases List.mem_append.1 b with b | b
      · exact List.mem_append_left _ b
      · exact List.mem_append_right _ (List.mem_cons_of_mem _ b)
    · refine ⟨h2, ?_, ?_⟩
      · rw [ids_append, ids_cons, h1]; exact List.mem_append_right _ List.mem_cons_self
      · rw [h1]; exact fun e => hlD (e ▸ h2)
  · intro u hu v hv hne
    have hul : u.id ≠ l.id := fun e => hlD (e ▸ mem_ids.2 ⟨u, hu, rfl⟩)
    have hvl : v.id ≠ l.id := fun e => hlD (e ▸ mem_ids.2 ⟨v, hv, rfl⟩)
    rw [cnt, cnt, count_map_left_zero _ _ _ (Or.inl hul), count_map_left_zero _ _ _ (Or.inl hvl)]
    exact h.dd u hu v hv hne
  · intro s hs x hx
    rcases List.mem_cons.1 hs with rfl | hs
    · rw [cnt, count_map_left _ _ _ hn1 x hx]
      have z : List.count (s.id, x.id) (Marks.pairs ⟨P, []⟩) = 0 := by
        rw [List.count_eq_zero]
        intro hm
        exact hf (h.pm _ hm).2.1
      rw [z, meet_symm, Nat.zero_add]; rfl
    · have hsl : s.id ≠ l.id := fun e => hf (by
        rw [ids_append]; exact List.mem_append_right _ (e ▸ mem_ids.2 ⟨s, hs, rfl⟩))
      rw [cnt, count_map_left_zero _ _ _ (Or.inl hsl)]
      exact h.ds s hs x hx

end query

end BBTree
end Cm
