import Verif.Proofs.BBTreeInv
import Verif.Spec.Index
/-! # Histories of the paired trees refine the index specification -/
set_option linter.unusedSectionVars false
set_option linter.unusedSimpArgs false
namespace Cm
namespace BBTree
open Spec
variable {K : Type} [Zero K] [One K] [Add K] [Sub K] [Mul K] [Div K] [Neg K] [NatCast K] [LinearOrder K] [Spec.Rounded K]

/-- Invariant between operations. -/
structure OK (s : State K) : Prop where
  inv : Inv (leavesOf s.dyn) (leavesOf s.stat) s.stamp s.pairs
  td : TightO s.dyn
  ts : TightO s.stat
  pd : ∀ l ∈ leavesOf s.dyn, Proper l.bb
  ps : ∀ l ∈ leavesOf s.stat, Proper l.bb

/-- Invariant while leaves are being updated. -/
structure OKm (s : State K) : Prop where
  mid : Mid (leavesOf s.dyn) (leavesOf s.stat) s.stamp s.pairs
  td : TightO s.dyn
  ts : TightO s.stat
  pd : ∀ l ∈ leavesOf s.dyn, Proper l.bb
  ps : ∀ l ∈ leavesOf s.stat, Proper l.bb

theorem OK.okm {s : State K} (h : OK s) : OKm s := ⟨h.inv.mid, h.td, h.ts, h.pd, h.ps⟩

/-- The state represents the map. -/
structure Rel (m : Index K) (s : State K) : Prop where
  ok : OK s
  d1 : ∀ i b, m i = some (true, b) → ∃ l ∈ leavesOf s.dyn, l.id = i ∧ l.bb.contains b = true
  d2 : ∀ l ∈ leavesOf s.dyn, ∃ b, m l.id = some (true, b)
  s1 : ∀ i b, m i = some (false, b) → ∃ l ∈ leavesOf s.stat, l.id = i ∧ l.bb.contains b = true
  s2 : ∀ l ∈ leavesOf s.stat, ∃ b, m l.id = some (false, b)

theorem fat_proper {bb : BB K} (v : V2 K) (h : Proper bb) : Proper (fatBB bb v) := by
  have := fatBB_contains v h
  rw [BB.contains_iff] at this
  obtain ⟨h1, h2, h3, h4⟩ := this
  exact ⟨le_trans h1 (le_trans h.1 h2), le_trans h3 (le_trans h.2 h4)⟩

theorem leavesOf_some (t : Tree K) : leavesOf (some t) = t.leaves := rfl

/-- Unlink shape `i` from a tree with `Nodup` ids. -/
theorem leavesOf_remove {t : Tree K} (i : Nat) (hn : (ids t.leaves).Nodup) :
    leavesOf (t.remove i) = (leavesOf (some t)).filter (fun l => !(l.id == i)) := leaves_remove i t hn

theorem Rel.absent {m : Index K} {s : State K} (h : Rel m s) (i : Nat) :
    (leavesOf s.dyn ++ leavesOf s.stat).any (fun l => l.id == i) = (m i).isSome := by
  cases hm : m i with
  | none =>
    rw [Option.isSome_none, Bool.eq_false_iff]
    intro hany
    rw [List.any_eq_true] at hany
    obtain ⟨l, hl, e⟩ := hany
    rw [beq_iff_eq] at e
    rcases List.mem_append.1 hl with hl | hl
    · obtain ⟨b, hb⟩ := h.d2 l hl
      rw [e, hm] at hb; cases hb
    · obtain ⟨b, hb⟩ := h.s2 l hl
      rw [e, hm] at hb; cases hb
  | some v =>
    obtain ⟨k, b⟩ := v
    rw [Option.isSome_some, List.any_eq_true]
    cases k with
    | true => obtain ⟨l, hl, e, _⟩ := h.d1 i b hm; exact ⟨l, List.mem_append_left _ hl, by simp [e]⟩
    | false => obtain ⟨l, hl, e, _⟩ := h.s1 i b hm; exact ⟨l, List.mem_append_right _ hl, by simp [e]⟩

theorem not_mem_of_any {L : List (Leaf K)} {i : Nat} (h : L.any (fun l => l.id == i) = false) : i ∉ ids L := by
  intro hi
  obtain ⟨l, hl, e⟩ := mem_ids.1 hi
  have : L.any (fun l => l.id == i) = true := List.any_eq_true.2 ⟨l, hl, by simp [e]⟩
  rw [h] at this; cases this

/-- Linking a new dynamic leaf and adding its pairs. `s` is the state with the leaf absent. -/
theorem link_dyn {s : State K} (h : OK s) (i : Nat) (bb : BB K) (v : V2 K) (hp : Proper bb)
    (hf : i ∉ ids (leavesOf s.dyn ++ leavesOf s.stat)) :
    let l : Leaf K := ⟨i, fatBB bb v, s.stamp⟩
    let s' := leafAddPairsDyn { s with dyn := some (insertRoot l s.dyn) } l
    OK { s' with stamp := s'.stamp + 1 } ∧ (leavesOf s'.dyn).Perm (l :: leavesOf s.dyn) ∧ s'.stat = s.stat := by
  intro l s'
  have hs' : s' = { s with dyn := some (insertRoot l s.dyn), pairs := (markLeaf s.stamp (insertRoot l s.dyn) s.stat l ⟨s.pairs, []⟩).pairs } := rfl
  have hperm := leaves_insertRoot l s.dyn
  have hmid : Mid (insertRoot l s.dyn).leaves (leavesOf s.stat) s.stamp s.pairs :=
    (h.inv.mid.link l rfl hf).perm hperm (List.Perm.refl _)
  have ht := tight_insertRoot l s.dyn h.td
  have hl : l ∈ (insertRoot l s.dyn).leaves := hperm.mem_iff.2 List.mem_cons_self
  have hinv := mark_one_inv hmid ht h.ts hl rfl (by
    intro x hx hne
    rcases List.mem_cons.1 (hperm.mem_iff.1 hx) with rfl | hx
    · exact absurd rfl hne
    · exact h.inv.sd x hx)
  rw [hs']
  refine ⟨⟨hinv, ?_, h.ts, ?_, h.ps⟩, hperm, rfl⟩
  · intro t ht'
    cases ht'
    exact ht
  · intro x hx
    rcases List.mem_cons.1 (hperm.mem_iff.1 hx) with rfl | hx
    · exact fat_proper v hp
    · exact h.pd x hx

theorem link_stat {s : State K} (h : OK s) (i : Nat) (bb : BB K) (hp : Proper bb)
    (hf : i ∉ ids (leavesOf s.dyn ++ leavesOf s.stat)) :
    let l : Leaf K := ⟨i, bb, s.stamp⟩
    let s' := leafAddPairsStat { s with stat := some (insertRoot l s.stat) } l
    OK { s' with stamp := s'.stamp + 1 } ∧ (leavesOf s'.stat).Perm (l :: leavesOf s.stat) ∧ s'.dyn = s.dyn := by
  intro l s'
  have hperm := leaves_insertRoot l s.stat
  have ht := tight_insertRoot l s.stat h.ts
  have hps : ∀ x ∈ (insertRoot l s.stat).leaves, Proper x.bb := by
    intro x hx
    rcases List.mem_cons.1 (hperm.mem_iff.1 hx) with rfl | hx
    · exact hp
    · exact h.ps x hx
  have hts : TightO (some (insertRoot l s.stat)) := by intro t ht'; cases ht'; exact ht
  cases hd : s.dyn with
  | none =>
    have hs' : s' = { s with stat := some (insertRoot l s.stat) } := by
      change leafAddPairsStat _ _ = _
      unfold leafAddPairsStat
      simp [hd]
    rw [hs']
    have hD : leavesOf s.dyn = [] := by simp [leavesOf, hd]
    refine ⟨⟨?_, h.td, hts, h.pd, hps⟩, hperm, hd⟩
    have hinv := h.inv
    have hP : s.pairs = [] := by
      rw [List.eq_nil_iff_forall_not_mem]
      intro p hp
      have := (hinv.pm p hp).1
      rw [hD] at this
      simp at this
    change Inv (leavesOf s.dyn) (insertRoot l s.stat).leaves (s.stamp + 1) s.pairs
    rw [hD, hP]
    refine ⟨?_, by simp, ?_, by simp, by simp, by simp⟩
    · have : (ids (l :: leavesOf s.stat)).Nodup := by
        rw [ids_cons, List.nodup_cons]
        rw [hD] at hf
        have := hinv.nd
        rw [hD] at this
        exact ⟨hf, this⟩
      exact (hperm.map _).nodup_iff.2 this
    · intro x hx
      rcases List.mem_cons.1 (hperm.mem_iff.1 hx) with rfl | hx
      · exact Nat.lt_succ_self _
      · exact Nat.lt_succ_of_lt (hinv.ss x hx)
  | some root =>
    have hs' : s' = { s with stat := some (insertRoot l s.stat), pairs := (markLeafQuery l true root ⟨s.pairs, []⟩).pairs } := by
      change leafAddPairsStat _ _ = _
      unfold leafAddPairsStat
      simp [hd, voidMarks]
    rw [hs']
    have hD : leavesOf s.dyn = root.leaves := by simp [leavesOf, hd]
    refine ⟨⟨?_, h.td, hts, h.pd, hps⟩, hperm, hd⟩
    have hinv := h.inv
    rw [hD] at hinv hf
    have k := mark_stat_inv hinv (h.td root hd) (l := l) rfl hf
    change Inv (leavesOf s.dyn) (insertRoot l s.stat).leaves (s.stamp + 1) _
    rw [hD]
    exact k.perm (List.Perm.refl _) hperm

theorem nodup_dyn {s : State K} (h : OKm s) : (ids (leavesOf s.dyn)).Nodup := by
  have := h.mid.nd; rw [ids_append] at this; exact this.of_append_left
theorem nodup_stat {s : State K} (h : OKm s) : (ids (leavesOf s.stat)).Nodup := by
  have := h.mid.nd; rw [ids_append] at this; exact this.of_append_right
theorem disj {s : State K} (h : OKm s) : List.Disjoint (ids (leavesOf s.dyn)) (ids (leavesOf s.stat)) := by
  have := h.mid.nd; rw [ids_append] at this; exact List.disjoint_of_nodup_append this

/-- Unlinking a dynamic leaf. -/
theorem unlink_dyn {s : State K} {t : Tree K} (h : OKm s) (ht : s.dyn = some t) (i : Nat) (hi : i ∈ ids t.leaves) :
    OKm { s with dyn := t.remove i, pairs := pairsClear i s.pairs } ∧
    leavesOf (t.remove i) = (leavesOf s.dyn).filter (fun l => !(l.id == i)) ∧
    i ∉ ids (leavesOf (t.remove i) ++ leavesOf s.stat) := by
  have hn := nodup_dyn h
  have hD : leavesOf s.dyn = t.leaves := by rw [ht]; rfl
  rw [hD] at hn
  have hl := leaves_remove i t hn
  have hiS : i ∉ ids (leavesOf s.stat) := fun h' => disj h (by rw [hD]; exact hi) h'
  have hS := filter_absent hiS
  refine ⟨⟨?_, tight_remove i t (h.td t ht), h.ts, ?_, h.ps⟩, by rw [hD]; exact hl, ?_⟩
  · have k := h.mid.unlink i
    rw [hS, hD, ← hl] at k
    exact k
  · intro l hl'
    change l ∈ leavesOf (t.remove i) at hl'
    rw [hl] at hl'
    exact h.pd l (by rw [hD]; exact (mem_filter_ne.1 hl').1)
  · rw [hl, ids_append, List.mem_append, mem_ids_filter]
    rintro (⟨_, h'⟩ | h')
    · exact h' rfl
    · exact hiS h'

theorem unlink_stat {s : State K} {t : Tree K} (h : OKm s) (ht : s.stat = some t) (i : Nat) (hi : i ∈ ids t.leaves) :
    OKm { s with stat := t.remove i, pairs := pairsClear i s.pairs } ∧
    leavesOf (t.remove i) = (leavesOf s.stat).filter (fun l => !(l.id == i)) ∧
    i ∉ ids (leavesOf s.dyn ++ leavesOf (t.remove i)) := by
  have hn := nodup_stat h
  have hS : leavesOf s.stat = t.leaves := by rw [ht]; rfl
  rw [hS] at hn
  have hl := leaves_remove i t hn
  have hiD : i ∉ ids (leavesOf s.dyn) := fun h' => disj h h' (by rw [hS]; exact hi)
  have hD := filter_absent hiD
  refine ⟨⟨?_, h.td, tight_remove i t (h.ts t ht), h.pd, ?_⟩, by rw [hS]; exact hl, ?_⟩
  · have k := h.mid.unlink i
    rw [hD, hS, ← hl] at k
    exact k
  · intro l hl'
    change l ∈ leavesOf (t.remove i) at hl'
    rw [hl] at hl'
    exact h.ps l (by rw [hS]; exact (mem_filter_ne.1 hl').1)
  · rw [hl, ids_append, List.mem_append, mem_ids_filter]
    rintro (h' | ⟨_, h'⟩)
    · exact hiD h'
    · exact h' rfl

/-- The moved case of `LeafUpdate`, up to but not including pairs. -/
theorem relink_dyn {s : State K} {t : Tree K} (h : OKm s) (ht : s.dyn = some t) (i : Nat) (hi : i ∈ ids t.leaves)
    (bb : BB K) (v : V2 K) (hp : Proper bb) :
    OKm { s with dyn := some (insertRoot ⟨i, fatBB bb v, s.stamp⟩ (t.remove i)), pairs := pairsClear i s.pairs } ∧
    (insertRoot ⟨i, fatBB bb v, s.stamp⟩ (t.remove i)).leaves.Perm
      (⟨i, fatBB bb v, s.stamp⟩ :: (leavesOf s.dyn).filter (fun l => !(l.id == i))) := by
  obtain ⟨h1, h2, h3⟩ := unlink_dyn h ht i hi
  set l : Leaf K := ⟨i, fatBB bb v, s.stamp⟩ with hl
  have hperm := leaves_insertRoot l (t.remove i)
  refine ⟨⟨?_, ?_, h1.ts, ?_, h1.ps⟩, by rw [← h2]; exact hperm⟩
  · exact (h1.mid.link l rfl h3).perm hperm (List.Perm.refl _)
  · intro t' ht'; cases ht'; exact tight_insertRoot l _ h1.td
  · intro x hx
    rcases List.mem_cons.1 (hperm.mem_iff.1 hx) with rfl | hx
    · exact fat_proper v hp
    · exact h1.pd x hx

theorem find_of_nodup {L : List (Leaf K)} (hn : (ids L).Nodup) {l : Leaf K} (hl : l ∈ L) :
    L.find? (fun x => x.id == l.id) = some l := by
  induction L with
  | nil => cases hl
  | cons x L ih =>
    rw [ids_cons, List.nodup_cons] at hn
    rcases List.mem_cons.1 hl with rfl | hl
    · simp
    · have : x.id ≠ l.id := fun e => hn.1 (e ▸ mem_ids.2 ⟨l, hl, rfl⟩)
      rw [List.find?_cons_of_neg (by simpa using this)]
      exact ih hn.2 hl

/-- What `LeafUpdate` does, in terms of leaves. -/
theorem leafUpdate_spec {s : State K} (h : OKm s) (i : Nat) (bb : BB K) (v : V2 K) (hp : Proper bb) :
    OKm (leafUpdateDyn s i bb v).1 ∧ (leafUpdateDyn s i bb v).1.stat = s.stat ∧
    (leafUpdateDyn s i bb v).1.stamp = s.stamp ∧
    (∀ l ∈ leavesOf (leafUpdateDyn s i bb v).1.dyn, (l ∈ leavesOf s.dyn ∧ (l.id = i → l.bb.contains bb = true)) ∨
      (l = ⟨i, fatBB bb v, s.stamp⟩ ∧ i ∈ ids (leavesOf s.dyn))) ∧
    (∀ j, j ∈ ids (leavesOf (leafUpdateDyn s i bb v).1.dyn) ↔ j ∈ ids (leavesOf s.dyn)) := by
  unfold leafUpdateDyn
  cases hd : s.dyn with
  | none => exact ⟨h, rfl, rfl, by simp [hd, leavesOf], by simp [hd]⟩
  | some t =>
    have hD : leavesOf s.dyn = t.leaves := by rw [hd]; rfl
    dsimp only
    rw [find?_eq]
    cases hf : t.leaves.find? (fun l => l.id == i) with
    | none =>
      dsimp only
      refine ⟨h, rfl, rfl, ?_, by simp [hd]⟩
      intro l hl
      rw [hD] at hl
      rw [List.find?_eq_none] at hf
      have := hf l hl
      exact Or.inl ⟨hl, fun e => absurd (by simpa using e) this⟩
    | some old =>
      dsimp only
      have hold := List.mem_of_find?_eq_some hf
      have hid : old.id = i := by simpa using List.find?_some hf
      have hi : i ∈ ids t.leaves := mem_ids.2 ⟨old, hold, hid⟩
      by_cases hc : old.bb.contains bb = true
      · rw [if_pos hc]
        refine ⟨h, rfl, rfl, ?_, by simp [hd]⟩
        intro l hl
        rw [hD] at hl
        refine Or.inl ⟨hl, fun e => ?_⟩
        have hn := nodup_dyn h
        rw [hD] at hn
        have : l = old := List.inj_on_of_nodup_map hn hl hold (e.trans hid.symm)
        rw [this]; exact hc
      · rw [if_neg hc]
        obtain ⟨k1, k2⟩ := relink_dyn h hd i hi bb v hp
        refine ⟨k1, rfl, rfl, ?_, ?_⟩
        · intro l hl
          rcases List.mem_cons.1 (k2.mem_iff.1 hl) with rfl | hl
          · right; exact ⟨rfl, hi⟩
          · left
            rw [mem_filter_ne] at hl
            rw [hD] at hl
            exact ⟨hl.1, fun e => absurd e hl.2⟩
        · intro j
          have : j ∈ ids (leavesOf (some (insertRoot ⟨i, fatBB bb v, s.stamp⟩ (t.remove i)))) ↔ _ :=
            (k2.map (fun l : Leaf K => l.id)).mem_iff
          rw [this]
          change j ∈ i :: ids ((leavesOf s.dyn).filter (fun l => !(l.id == i))) ↔ _
          rw [List.mem_cons, mem_ids_filter, hD]
          change _ ↔ j ∈ ids t.leaves
          constructor
          · rintro (rfl | ⟨h', _⟩)
            · exact hi
            · exact h'
          · intro h'
            by_cases e : j = i
            · exact Or.inl e
            · exact Or.inr ⟨h', e⟩

/-- All leaf updates of `ReindexQuery`. -/
theorem updates_spec (bbf : Nat → BB K) (vel : Nat → V2 K) (hp : ∀ i, Proper (bbf i)) :
    ∀ (order : List Nat) (s : State K), OKm s →
    let s' := order.foldl (fun s i => (leafUpdateDyn s i (bbf i) (vel i)).1) s
    OKm s' ∧ s'.stat = s.stat ∧ s'.stamp = s.stamp ∧
    (∀ l ∈ leavesOf s'.dyn, l.id ∈ order → l.bb.contains (bbf l.id) = true) ∧
    (∀ l ∈ leavesOf s'.dyn, l.id ∉ order → l ∈ leavesOf s.dyn) ∧
    (∀ l ∈ leavesOf s'.dyn, l ∈ leavesOf s.dyn ∨ l.bb.contains (bbf l.id) = true) ∧
    (∀ j, j ∈ ids (leavesOf s'.dyn) ↔ j ∈ ids (leavesOf s.dyn))
  | [], s, h => ⟨h, rfl, rfl, by simp, fun l hl _ => hl, fun l hl => Or.inl hl, fun _ => Iff.rfl⟩
  | i :: order, s, h => by
    obtain ⟨a1, a2, a3, a4, a5⟩ := leafUpdate_spec h i (bbf i) (vel i) (hp i)
    obtain ⟨b1, b2, b3, b4, b5, b7, b6⟩ := updates_spec bbf vel hp order _ a1
    have key : ∀ l ∈ leavesOf (leafUpdateDyn s i (bbf i) (vel i)).1.dyn, l.id = i → l.bb.contains (bbf i) = true := by
      intro l hl e
      rcases a4 l hl with ⟨_, h'⟩ | ⟨rfl, _⟩
      · exact h' e
      · exact fatBB_contains _ (hp i)
    refine ⟨b1, b2.trans a2, b3.trans a3, ?_, ?_, ?_, fun j => (b6 j).trans (a5 j)⟩
    · intro l hl hm
      by_cases ho : l.id ∈ order
      · exact b4 l hl ho
      · have he : l.id = i := (List.mem_cons.1 hm).resolve_right ho
        rw [he]
        exact key l (b5 l hl ho) he
    · intro l hl hm
      rw [List.mem_cons, not_or] at hm
      rcases a4 l (b5 l hl hm.2) with ⟨h', _⟩ | ⟨rfl, _⟩
      · exact h'
      · exact absurd rfl hm.1
    · intro l hl
      rcases b7 l hl with h' | h'
      · rcases a4 l h' with ⟨h'', _⟩ | ⟨rfl, _⟩
        · exact Or.inl h''
        · exact Or.inr (fatBB_contains _ (hp i))
      · exact Or.inr h'

/-- `ReindexQuery` on a consistent state: what it does and which calls it makes. -/
theorem reindexQuery_spec {s : State K} (h : OK s) (order : List Nat) (bbf : Nat → BB K) (vel : Nat → V2 K)
    (hp : ∀ i, Proper (bbf i)) (ho : ∀ i, i ∈ ids (leavesOf s.dyn) → i ∈ order) :
    let r := reindexQuery s order bbf vel
    OK r.1 ∧ r.1.stat = s.stat ∧
    (∀ l ∈ leavesOf r.1.dyn, l.bb.contains (bbf l.id) = true) ∧
    (∀ j, j ∈ ids (leavesOf r.1.dyn) ↔ j ∈ ids (leavesOf s.dyn)) ∧
    (∀ u ∈ leavesOf r.1.dyn, ∀ v ∈ leavesOf r.1.dyn, u.id ≠ v.id →
      r.2.count (u.id, v.id) + r.2.count (v.id, u.id) = meet u v) ∧
    (∀ t ∈ leavesOf s.stat, ∀ x ∈ leavesOf r.1.dyn,
      r.2.count (t.id, x.id) + r.2.count (x.id, t.id) = meet t x) ∧
    (∀ p ∈ r.2, p.1 ≠ p.2 ∧ p.1 ∈ ids (leavesOf s.dyn ++ leavesOf s.stat) ∧
      p.2 ∈ ids (leavesOf s.dyn ++ leavesOf s.stat) ∧ (p.1 ∈ ids (leavesOf s.dyn) ∨ p.2 ∈ ids (leavesOf s.dyn))) := by
  intro r
  have hr : r = reindexQuery s order bbf vel := rfl
  unfold reindexQuery at hr
  cases hd : s.dyn with
  | none =>
    rw [hd] at hr
    dsimp only at hr
    rw [hr]
    have : leavesOf s.dyn = [] := by simp [leavesOf, hd]
    dsimp only
    rw [hd] at this ⊢
    rw [this]
    exact ⟨h, rfl, by simp, by simp, by simp, by simp, by simp⟩
  | some t0 =>
    rw [hd] at hr
    obtain ⟨b1, b2, b3, b4, b5, b7, b6⟩ := updates_spec bbf vel hp order s h.okm
    dsimp only at hr
    set s' := order.foldl (fun s i => (leafUpdateDyn s i (bbf i) (vel i)).1) s with hs'
    cases hd' : s'.dyn with
    | none =>
      exfalso
      have hD : leavesOf s.dyn = t0.leaves := by rw [hd]; rfl
      cases hL : t0.leaves with
      | nil => exact leaves_ne_nil t0 hL
      | cons x L =>
        have hx : x.id ∈ ids (leavesOf s.dyn) := by rw [hD, hL]; simp
        have := (b6 x.id).2 hx
        rw [hd'] at this
        simp [leavesOf] at this
    | some root =>
      rw [hd'] at hr
      dsimp only at hr
      have hD' : leavesOf s'.dyn = root.leaves := by rw [hd']; rfl
      have hmid := b1.mid
      rw [hD'] at hmid
      have ht := b1.td root hd'
      have hts := b1.ts
      have hcon : ∀ l ∈ root.leaves, l.bb.contains (bbf l.id) = true := by
        intro l hl
        rw [← hD'] at hl
        exact b4 l hl (ho _ ((b6 _).1 (mem_ids.2 ⟨l, hl, rfl⟩)))
      have e1 : r.1.dyn = some root := by rw [hr, ← hd']
      have e2 : r.1.stat = s.stat := by rw [hr, ← b2]
      have e3 : r.2 = (markSubtree s'.stamp root s'.stat root ⟨s'.pairs, []⟩).calls := by rw [hr]
      have e4 : leavesOf r.1.dyn = root.leaves := by rw [e1]; rfl
      have hids : ∀ j, j ∈ ids root.leaves ↔ j ∈ ids (leavesOf s.dyn) := by rw [← hD']; exact b6
      have hids2 : ∀ j, j ∈ ids (root.leaves ++ leavesOf s'.stat) ↔ j ∈ ids (leavesOf s.dyn ++ leavesOf s.stat) := by
        intro j; rw [ids_append, ids_append, List.mem_append, List.mem_append, hids, b2]
      rw [← hd]
      refine ⟨⟨?_, ?_, ?_, ?_, ?_⟩, e2, ?_, ?_, ?_, ?_, ?_⟩
      · have k := mark_all_inv hmid ht hts
        rw [hr]
        exact k
      · rw [e1]; intro t ht'; cases ht'; exact ht
      · rw [e2]; exact h.ts
      · rw [e4, ← hD']; exact b1.pd
      · rw [e2]; exact h.ps
      · rw [e4]; exact hcon
      · rw [e4]; exact hids
      · rw [e4, e3]; intro u hu v hv hne; exact calls_dyn hmid ht hts hu hv hne
      · rw [e4, e3, ← b2]; intro u hu v hv; exact calls_static hmid ht hts hu hv
      · rw [e3]; intro p hp'
        obtain ⟨c1, c2, c3, c4⟩ := calls_mem hmid ht hts p hp'
        rw [hids2] at c2 c3
        rw [hids, hids] at c4
        exact ⟨c1, c2, c3, c4⟩

/-! ## Refinement -/

theorem set_same (m : Index K) (i : Nat) (v) : m.set i v i = v := by simp [Index.set]
theorem set_other (m : Index K) {i j : Nat} (v) (h : j ≠ i) : m.set i v j = m j := by simp [Index.set, h]

theorem Rel.insert_dyn {m : Index K} {s : State K} (h : Rel m s) {s' : State K} {l : Leaf K} {bb : BB K} (hok : OK s')
    (hd : (leavesOf s'.dyn).Perm (l :: (leavesOf s.dyn).filter (fun x => !(x.id == l.id)))) (hs : s'.stat = s.stat)
    (hm : ∀ x ∈ leavesOf s.stat, x.id ≠ l.id)
    (hc : l.bb.contains bb = true) : Rel (m.set l.id (some (true, bb))) s' := by
  have mem : ∀ x, x ∈ leavesOf s'.dyn ↔ x = l ∨ (x ∈ leavesOf s.dyn ∧ x.id ≠ l.id) := by
    intro x; rw [hd.mem_iff, List.mem_cons, mem_filter_ne]
  refine ⟨hok, ?_, ?_, ?_, ?_⟩
  · intro j b hj
    by_cases e : j = l.id
    · subst e
      rw [set_same] at hj
      cases hj
      exact ⟨l, (mem l).2 (Or.inl rfl), rfl, hc⟩
    · rw [set_other _ _ e] at hj
      obtain ⟨x, hx, e', hb⟩ := h.d1 j b hj
      exact ⟨x, (mem x).2 (Or.inr ⟨hx, by rw [e']; exact e⟩), e', hb⟩
  · intro x hx
    rcases (mem x).1 hx with rfl | ⟨hx, e⟩
    · exact ⟨bb, set_same _ _ _⟩
    · rw [set_other _ _ e]; exact h.d2 x hx
  · intro j b hj
    rw [hs]
    by_cases e : j = l.id
    · subst e; rw [set_same] at hj; cases hj
    · rw [set_other _ _ e] at hj; exact h.s1 j b hj
  · intro x hx
    rw [hs] at hx
    rw [set_other _ _ (hm x hx)]; exact h.s2 x hx

theorem Rel.insert_stat {m : Index K} {s : State K} (h : Rel m s) {s' : State K} {l : Leaf K} {bb : BB K} (hok : OK s')
    (hd : (leavesOf s'.stat).Perm (l :: (leavesOf s.stat).filter (fun x => !(x.id == l.id)))) (hs : s'.dyn = s.dyn)
    (hm : ∀ x ∈ leavesOf s.dyn, x.id ≠ l.id)
    (hc : l.bb.contains bb = true) : Rel (m.set l.id (some (false, bb))) s' := by
  have mem : ∀ x, x ∈ leavesOf s'.stat ↔ x = l ∨ (x ∈ leavesOf s.stat ∧ x.id ≠ l.id) := by
    intro x; rw [hd.mem_iff, List.mem_cons, mem_filter_ne]
  refine ⟨hok, ?_, ?_, ?_, ?_⟩
  · intro j b hj
    rw [hs]
    by_cases e : j = l.id
    · subst e; rw [set_same] at hj; cases hj
    · rw [set_other _ _ e] at hj; exact h.d1 j b hj
  · intro x hx
    rw [hs] at hx
    rw [set_other _ _ (hm x hx)]; exact h.d2 x hx
  · intro j b hj
    by_cases e : j = l.id
    · subst e
      rw [set_same] at hj
      cases hj
      exact ⟨l, (mem l).2 (Or.inl rfl), rfl, hc⟩
    · rw [set_other _ _ e] at hj
      obtain ⟨x, hx, e', hb⟩ := h.s1 j b hj
      exact ⟨x, (mem x).2 (Or.inr ⟨hx, by rw [e']; exact e⟩), e', hb⟩
  · intro x hx
    rcases (mem x).1 hx with rfl | ⟨hx, e⟩
    · exact ⟨bb, set_same _ _ _⟩
    · rw [set_other _ _ e]; exact h.s2 x hx

/-- The map tells which tree a shape is in. -/
theorem Rel.dyn_iff {m : Index K} {s : State K} (h : Rel m s) (i : Nat) :
    i ∈ ids (leavesOf s.dyn) ↔ ∃ b, m i = some (true, b) := by
  constructor
  · intro hi
    obtain ⟨l, hl, rfl⟩ := mem_ids.1 hi
    exact h.d2 l hl
  · rintro ⟨b, hb⟩
    obtain ⟨l, hl, e, _⟩ := h.d1 i b hb
    exact mem_ids.2 ⟨l, hl, e⟩

theorem Rel.stat_iff {m : Index K} {s : State K} (h : Rel m s) (i : Nat) :
    i ∈ ids (leavesOf s.stat) ↔ ∃ b, m i = some (false, b) := by
  constructor
  · intro hi
    obtain ⟨l, hl, rfl⟩ := mem_ids.1 hi
    exact h.s2 l hl
  · rintro ⟨b, hb⟩
    obtain ⟨l, hl, e, _⟩ := h.s1 i b hb
    exact mem_ids.2 ⟨l, hl, e⟩

theorem any_eq_true_iff {L : List (Leaf K)} {i : Nat} : L.any (fun l => l.id == i) = true ↔ i ∈ ids L := by
  rw [List.any_eq_true, mem_ids]
  constructor
  · rintro ⟨l, hl, e⟩; exact ⟨l, hl, by simpa using e⟩
  · rintro ⟨l, hl, e⟩; exact ⟨l, hl, by simpa using e⟩

theorem step_reindexDyn {m : Index K} {s : State K} (h : Rel m s) (i : Nat) (bb : BB K) (v : V2 K) (hp : Proper bb) (b0 : BB K)
    (hm : m i = some (true, b0)) : Rel (m.set i (some (true, bb))) (reindexDyn s i bb v) := by
  have hi : i ∈ ids (leavesOf s.dyn) := (h.dyn_iff i).2 ⟨b0, hm⟩
  have hiS : ∀ x ∈ leavesOf s.stat, x.id ≠ i := fun x hx e => disj h.ok.okm hi (e ▸ mem_ids.2 ⟨x, hx, rfl⟩)
  unfold reindexDyn
  rw [if_pos (any_eq_true_iff.2 hi)]
  unfold leafUpdateDyn
  cases hd : s.dyn with
  | none => rw [hd] at hi; simp [leavesOf] at hi
  | some t =>
    have hD : leavesOf s.dyn = t.leaves := by rw [hd]; rfl
    dsimp only
    rw [find?_eq]
    rw [hD] at hi
    cases hf : t.leaves.find? (fun l => l.id == i) with
    | none =>
      exfalso
      obtain ⟨l, hl, e⟩ := mem_ids.1 hi
      exact (List.find?_eq_none.1 hf l hl) (by simp [e])
    | some old =>
      dsimp only
      have hold := List.mem_of_find?_eq_some hf
      have hid : old.id = i := by simpa using List.find?_some hf
      have hn : (ids t.leaves).Nodup := by rw [← hD]; exact nodup_dyn h.ok.okm
      by_cases hc : old.bb.contains bb = true
      · rw [if_pos hc]
        dsimp only
        subst hid
        refine Rel.insert_dyn h (l := old) ⟨h.ok.inv.succ, h.ok.td, h.ok.ts, h.ok.pd, h.ok.ps⟩ ?_ rfl hiS hc
        change (leavesOf s.dyn).Perm _
        rw [hD]
        obtain ⟨A, B, e⟩ := List.append_of_mem hold
        rw [e] at hn
        rw [ids_append, ids_cons] at hn
        have hA : old.id ∉ ids A := fun h => (List.disjoint_of_nodup_append hn) h List.mem_cons_self
        have hB : old.id ∉ ids B := (List.nodup_cons.1 hn.of_append_right).1
        rw [e, List.filter_append, filter_absent hA, List.filter_cons_of_neg (by simp), filter_absent hB]
        exact List.perm_middle
      · rw [if_neg hc]
        dsimp only
        obtain ⟨k1, k2, k3⟩ := unlink_dyn h.ok.okm hd i hi
        set s0 : State K := { s with dyn := t.remove i, pairs := pairsClear i s.pairs } with hs0
        have ok0 : OK s0 := by
          refine ⟨Inv.of_mid k1.mid ?_, k1.td, k1.ts, k1.pd, k1.ps⟩
          intro l hl
          change l ∈ leavesOf (t.remove i) at hl
          rw [k2, mem_filter_ne] at hl
          exact h.ok.inv.sd l hl.1
        obtain ⟨a1, a2, a3⟩ := link_dyn ok0 i bb v hp k3
        refine Rel.insert_dyn h (l := ⟨i, fatBB bb v, s.stamp⟩) a1 ?_ a3 hiS (fatBB_contains v hp)
        rw [← k2]
        exact a2

theorem step_reindexStat {m : Index K} {s : State K} (h : Rel m s) (i : Nat) (bb : BB K) (hp : Proper bb) (b0 : BB K)
    (hm : m i = some (false, b0)) : Rel (m.set i (some (false, bb))) (reindexStat s i bb) := by
  have hi : i ∈ ids (leavesOf s.stat) := (h.stat_iff i).2 ⟨b0, hm⟩
  have hiS : ∀ x ∈ leavesOf s.dyn, x.id ≠ i := fun x hx e => disj h.ok.okm (e ▸ mem_ids.2 ⟨x, hx, rfl⟩) hi
  unfold reindexStat
  rw [if_pos (any_eq_true_iff.2 hi)]
  unfold leafUpdateStat
  cases hd : s.stat with
  | none => rw [hd] at hi; simp [leavesOf] at hi
  | some t =>
    have hD : leavesOf s.stat = t.leaves := by rw [hd]; rfl
    dsimp only
    rw [find?_eq]
    rw [hD] at hi
    cases hf : t.leaves.find? (fun l => l.id == i) with
    | none =>
      exfalso
      obtain ⟨l, hl, e⟩ := mem_ids.1 hi
      exact (List.find?_eq_none.1 hf l hl) (by simp [e])
    | some old =>
      dsimp only
      have hold := List.mem_of_find?_eq_some hf
      have hid : old.id = i := by simpa using List.find?_some hf
      have hn : (ids t.leaves).Nodup := by rw [← hD]; exact nodup_stat h.ok.okm
      by_cases hc : old.bb.contains bb = true
      · rw [if_pos hc]
        dsimp only
        subst hid
        refine Rel.insert_stat h (l := old) ⟨h.ok.inv.succ, h.ok.td, h.ok.ts, h.ok.pd, h.ok.ps⟩ ?_ rfl hiS hc
        change (leavesOf s.stat).Perm _
        rw [hD]
        obtain ⟨A, B, e⟩ := List.append_of_mem hold
        rw [e] at hn
        rw [ids_append, ids_cons] at hn
        have hA : old.id ∉ ids A := fun h => (List.disjoint_of_nodup_append hn) h List.mem_cons_self
        have hB : old.id ∉ ids B := (List.nodup_cons.1 hn.of_append_right).1
        rw [e, List.filter_append, filter_absent hA, List.filter_cons_of_neg (by simp), filter_absent hB]
        exact List.perm_middle
      · rw [if_neg hc]
        dsimp only
        obtain ⟨k1, k2, k3⟩ := unlink_stat h.ok.okm hd i hi
        set s0 : State K := { s with stat := t.remove i, pairs := pairsClear i s.pairs } with hs0
        have ok0 : OK s0 := by
          refine ⟨Inv.of_mid k1.mid ?_, k1.td, k1.ts, k1.pd, k1.ps⟩
          intro l hl
          exact h.ok.inv.sd l hl
        obtain ⟨a1, a2, a3⟩ := link_stat ok0 i bb hp k3
        refine Rel.insert_stat h (l := ⟨i, bb, s.stamp⟩) a1 ?_ a3 hiS (contains_refl bb)
        rw [← k2]
        exact a2

/-- One operation refines one step of the specification. -/
theorem step_refines {m : Index K} {s : State K} (h : Rel m s) (op : Op K) (hl : Legal m op) :
    (∀ m', indexStep m op = some m' → ∃ s' calls, step s op = some (s', calls) ∧ Rel m' s') ∧
    (indexStep m op = none → step s op = none) := by
  cases op with
  | insertDyn i bb v =>
    simp only [indexStep, step, insertDyn]
    rw [h.absent i]
    by_cases hm : (m i).isSome = true
    · rw [if_pos hm, if_pos hm]; simp
    · rw [if_neg hm, if_neg hm]
      refine ⟨?_, by simp⟩
      rintro m' ⟨⟩
      have hf : i ∉ ids (leavesOf s.dyn ++ leavesOf s.stat) := not_mem_of_any (by rw [h.absent i]; simpa using hm)
      obtain ⟨a1, a2, a3⟩ := link_dyn h.ok i bb v hl hf
      refine ⟨_, _, rfl, ?_⟩
      rw [ids_append, List.mem_append, not_or] at hf
      refine Rel.insert_dyn h (l := ⟨i, fatBB bb v, s.stamp⟩) a1 ?_ a3 ?_ (fatBB_contains v hl)
      · rw [filter_absent hf.1]; exact a2
      · exact fun x hx e => hf.2 (mem_ids.2 ⟨x, hx, e⟩)
  | insertStat i bb =>
    simp only [indexStep, step, insertStat]
    rw [h.absent i]
    by_cases hm : (m i).isSome = true
    · rw [if_pos hm, if_pos hm]; simp
    · rw [if_neg hm, if_neg hm]
      refine ⟨?_, by simp⟩
      rintro m' ⟨⟩
      have hf : i ∉ ids (leavesOf s.dyn ++ leavesOf s.stat) := not_mem_of_any (by rw [h.absent i]; simpa using hm)
      obtain ⟨a1, a2, a3⟩ := link_stat h.ok i bb hl hf
      refine ⟨_, _, rfl, ?_⟩
      rw [ids_append, List.mem_append, not_or] at hf
      refine Rel.insert_stat h (l := ⟨i, bb, s.stamp⟩) a1 ?_ a3 ?_ (contains_refl bb)
      · rw [filter_absent hf.2]; exact a2
      · exact fun x hx e => hf.1 (mem_ids.2 ⟨x, hx, e⟩)
  | removeDyn i =>
    simp only [indexStep, step]
    have key : (∃ b, m i = some (true, b)) → ∃ s', removeDyn s i = some s' ∧
          Rel (m.set i none) s' := by
      rintro ⟨b, hb⟩
      have hi := (h.dyn_iff i).2 ⟨b, hb⟩
      unfold removeDyn
      cases hd : s.dyn with
      | none => rw [hd] at hi; simp [leavesOf] at hi
      | some t =>
        have hD : leavesOf s.dyn = t.leaves := by rw [hd]; rfl
        rw [hD] at hi
        dsimp only
        rw [if_pos ((has_iff i t).2 hi)]
        obtain ⟨k1, k2, k3⟩ := unlink_dyn h.ok.okm hd i hi
        refine ⟨_, rfl, ⟨Inv.of_mid k1.mid ?_, k1.td, k1.ts, k1.pd, k1.ps⟩, ?_, ?_, ?_, ?_⟩
        · intro l hl
          change l ∈ leavesOf (t.remove i) at hl
          rw [k2, mem_filter_ne] at hl
          exact h.ok.inv.sd l hl.1
        · intro j b' hj
          by_cases e : j = i
          · subst e; rw [set_same] at hj; cases hj
          · rw [set_other _ _ e] at hj
            obtain ⟨x, hx, e', hb⟩ := h.d1 j b' hj
            refine ⟨x, ?_, e', hb⟩
            change x ∈ leavesOf (t.remove i)
            rw [k2, mem_filter_ne]
            exact ⟨hx, by rw [e']; exact e⟩
        · intro x hx
          change x ∈ leavesOf (t.remove i) at hx
          rw [k2, mem_filter_ne] at hx
          rw [set_other _ _ hx.2]; exact h.d2 x hx.1
        · intro j b' hj
          by_cases e : j = i
          · subst e; rw [set_same] at hj; cases hj
          · rw [set_other _ _ e] at hj; exact h.s1 j b' hj
        · intro x hx
          have e : x.id ≠ i := by
            rintro rfl
            obtain ⟨b2, hb2⟩ := h.s2 x hx
            rw [hb] at hb2; cases hb2
          rw [set_other _ _ e]; exact h.s2 x hx
    have key2 : (¬ ∃ b, m i = some (true, b)) → removeDyn s i = none := by
      intro hne
      unfold removeDyn
      cases hd : s.dyn with
      | none => rfl
      | some t =>
        have hD : leavesOf s.dyn = t.leaves := by rw [hd]; rfl
        dsimp only
        rw [if_neg]
        intro hc
        have := (has_iff i t).1 hc
        rw [← hD] at this
        exact hne ((h.dyn_iff i).1 this)
    by_cases hex : ∃ b, m i = some (true, b)
    · obtain ⟨s', e, hr⟩ := key hex
      obtain ⟨b, hb⟩ := hex
      rw [e, hb]
      refine ⟨?_, by simp⟩
      rintro m' ⟨⟩
      exact ⟨s', [], rfl, hr⟩
    · rw [key2 hex]
      refine ⟨?_, fun _ => rfl⟩
      intro m' hm'
      exfalso
      split at hm'
      · rename_i b hb; exact hex ⟨b, hb⟩
      · cases hm'
  | removeStat i =>
    simp only [indexStep, step]
    have key : (∃ b, m i = some (false, b)) → ∃ s', removeStat s i = some s' ∧
          Rel (m.set i none) s' := by
      rintro ⟨b, hb⟩
      have hi := (h.stat_iff i).2 ⟨b, hb⟩
      unfold removeStat
      cases hd : s.stat with
      | none => rw [hd] at hi; simp [leavesOf] at hi
      | some t =>
        have hD : leavesOf s.stat = t.leaves := by rw [hd]; rfl
        rw [hD] at hi
        dsimp only
        rw [if_pos ((has_iff i t).2 hi)]
        obtain ⟨k1, k2, k3⟩ := unlink_stat h.ok.okm hd i hi
        refine ⟨_, rfl, ⟨Inv.of_mid k1.mid ?_, k1.td, k1.ts, k1.pd, k1.ps⟩, ?_, ?_, ?_, ?_⟩
        · intro l hl
          exact h.ok.inv.sd l hl
        · intro j b' hj
          by_cases e : j = i
          · subst e; rw [set_same] at hj; cases hj
          · rw [set_other _ _ e] at hj; exact h.d1 j b' hj
        · intro x hx
          have e : x.id ≠ i := by
            rintro rfl
            obtain ⟨b2, hb2⟩ := h.d2 x hx
            rw [hb] at hb2; cases hb2
          rw [set_other _ _ e]; exact h.d2 x hx
        · intro j b' hj
          by_cases e : j = i
          · subst e; rw [set_same] at hj; cases hj
          · rw [set_other _ _ e] at hj
            obtain ⟨x, hx, e', hb⟩ := h.s1 j b' hj
            refine ⟨x, ?_, e', hb⟩
            change x ∈ leavesOf (t.remove i)
            rw [k2, mem_filter_ne]
            exact ⟨hx, by rw [e']; exact e⟩
        · intro x hx
          change x ∈ leavesOf (t.remove i) at hx
          rw [k2, mem_filter_ne] at hx
          rw [set_other _ _ hx.2]; exact h.s2 x hx.1
    have key2 : (¬ ∃ b, m i = some (false, b)) → removeStat s i = none := by
      intro hne
      unfold removeStat
      cases hd : s.stat with
      | none => rfl
      | some t =>
        have hD : leavesOf s.stat = t.leaves := by rw [hd]; rfl
        dsimp only
        rw [if_neg]
        intro hc
        have := (has_iff i t).1 hc
        rw [← hD] at this
        exact hne ((h.stat_iff i).1 this)
    by_cases hex : ∃ b, m i = some (false, b)
    · obtain ⟨s', e, hr⟩ := key hex
      obtain ⟨b, hb⟩ := hex
      rw [e, hb]
      refine ⟨?_, by simp⟩
      rintro m' ⟨⟩
      exact ⟨s', [], rfl, hr⟩
    · rw [key2 hex]
      refine ⟨?_, fun _ => rfl⟩
      intro m' hm'
      exfalso
      split at hm'
      · rename_i b hb; exact hex ⟨b, hb⟩
      · cases hm'
  | reindexDyn i bb v =>
    simp only [indexStep, step]
    split
    · rename_i b hb
      refine ⟨?_, by simp⟩
      rintro m' ⟨⟩
      exact ⟨_, _, rfl, step_reindexDyn h i bb v hl b hb⟩
    · rename_i hb
      refine ⟨?_, by simp⟩
      rintro m' ⟨⟩
      refine ⟨_, _, rfl, ?_⟩
      have : reindexDyn s i bb v = s := by
        unfold reindexDyn
        rw [if_neg]
        intro hc
        obtain ⟨b, hb'⟩ := (h.dyn_iff i).1 (any_eq_true_iff.1 hc)
        exact hb b hb'
      rw [this]; exact h
  | reindexStat i bb =>
    simp only [indexStep, step]
    split
    · rename_i b hb
      refine ⟨?_, by simp⟩
      rintro m' ⟨⟩
      exact ⟨_, _, rfl, step_reindexStat h i bb hl b hb⟩
    · rename_i hb
      refine ⟨?_, by simp⟩
      rintro m' ⟨⟩
      refine ⟨_, _, rfl, ?_⟩
      have : reindexStat s i bb = s := by
        unfold reindexStat
        rw [if_neg]
        intro hc
        obtain ⟨b, hb'⟩ := (h.stat_iff i).1 (any_eq_true_iff.1 hc)
        exact hb b hb'
      rw [this]; exact h
  | reindexQuery order bbf vel =>
    simp only [indexStep, step]
    refine ⟨?_, by simp⟩
    rintro m' ⟨⟩
    obtain ⟨hp, hno, hor⟩ := hl
    obtain ⟨a1, a2, a3, a4, _⟩ := reindexQuery_spec h.ok order bbf vel hp
      (fun i hi => (hor i).2 ((h.dyn_iff i).1 hi))
    refine ⟨(reindexQuery s order bbf vel).1, (reindexQuery s order bbf vel).2, rfl, a1, ?_, ?_, ?_, ?_⟩
    · intro i b hb
      have : ∃ b0, m i = some (true, b0) ∧ b = bbf i := by
        revert hb
        split
        · rename_i b0 hb0; intro e; cases e; exact ⟨b0, hb0, rfl⟩
        · rename_i hb0; intro e; exact absurd e (by intro e; exact hb0 b e)
      obtain ⟨b0, hb0, rfl⟩ := this
      have hi := (a4 i).2 ((h.dyn_iff i).2 ⟨b0, hb0⟩)
      obtain ⟨l, hl, e⟩ := mem_ids.1 hi
      exact ⟨l, hl, e, by rw [← e]; exact a3 l hl⟩
    · intro l hl
      obtain ⟨b0, hb0⟩ := (h.dyn_iff l.id).1 ((a4 l.id).1 (mem_ids.2 ⟨l, hl, rfl⟩))
      exact ⟨bbf l.id, by simp [hb0]⟩
    · intro i b hb
      rw [a2]
      refine h.s1 i b ?_
      revert hb
      split
      · intro e; cases e
      · exact id
    · intro l hl
      rw [a2] at hl
      obtain ⟨b, hb⟩ := h.s2 l hl
      exact ⟨b, by simp [hb]⟩

theorem rel_init : Rel (emptyIndex : Index K) init := by
  refine ⟨⟨⟨by simp [init, leavesOf], by simp [init, leavesOf], by simp [init, leavesOf], by simp [init],
    by simp [init, leavesOf], by simp [init, leavesOf]⟩, ?_, ?_, by simp [init, leavesOf], by simp [init, leavesOf]⟩, ?_, ?_, ?_, ?_⟩
  · intro t h; cases h
  · intro t h; cases h
  · intro i b h; cases h
  · simp [init, leavesOf]
  · intro i b h; cases h
  · simp [init, leavesOf]

theorem run_refines : ∀ (ops : List (Op K)) (m : Index K) (s : State K), Rel m s → LegalRun m ops →
    (∀ m', indexRun m ops = some m' → ∃ s', run s ops = some s' ∧ Rel m' s') ∧
    (indexRun m ops = none → run s ops = none)
  | [], m, s, h, _ => ⟨by rintro m' ⟨⟩; exact ⟨s, rfl, h⟩, by simp [indexRun]⟩
  | op :: ops, m, s, h, hl => by
    obtain ⟨k1, k2⟩ := step_refines h op hl.1
    unfold indexRun run
    cases hm : indexStep m op with
    | none => rw [k2 hm]; simp
    | some m1 =>
      obtain ⟨s1, c, e, hr⟩ := k1 m1 hm
      rw [e]
      exact run_refines ops m1 s1 hr (hl.2 m1 hm)

end BBTree
end Cm
