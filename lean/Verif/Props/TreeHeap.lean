import Verif.Spec.Rounded
import Verif.Model.TreeHeap
import Verif.Props.HashSetHeap
import Verif.Proofs.BBTree
import Mathlib.Data.List.Nodup
import Mathlib.Tactic.Common
/-! # C97: the nodes of a bounding box tree -/
set_option linter.unusedSectionVars false
set_option linter.unusedSimpArgs false
set_option linter.unusedVariables false

namespace Cm
open HashHeap (put)
open BBTree (Leaf leavesOf insertRoot)
open TreeHeap
variable {K : Type} [Zero K] [One K] [Add K] [Sub K] [Mul K] [Div K] [Neg K] [NatCast K] [LinearOrder K] [Spec.Rounded K]

namespace Spec
/-- A tree whose nodes carry addresses. -/
inductive AT (K : Type) where
  | leaf (n : Nat) (l : Leaf K)
  | node (n : Nat) (bb : BB K) (x y : AT K)

namespace AT
/-- The address of the top. -/
def addr : AT K → Nat
  | leaf n _ => n
  | node n _ _ _ => n
/-- All addresses. -/
def addrs : AT K → List Nat
  | leaf n _ => [n]
  | node n _ x y => n :: (x.addrs ++ y.addrs)
/-- The tree without its addresses. -/
def erase : AT K → BBTree.Tree K
  | leaf _ l => .leaf l
  | node _ bb x y => .node bb x.erase y.erase
/-- The leaves with their addresses. -/
def leafs : AT K → List (Nat × Leaf K)
  | leaf n l => [(n, l)]
  | node _ _ x y => x.leafs ++ y.leafs
end AT

/-- The memory holds the tree, with `p` above its top: every field of every node is right, and each node points back to the node above it. -/
def Holds (h : TH K) : Option Nat → AT K → Prop
  | p, .leaf n l => h.obj n = some l.id ∧ h.bb n = l.bb ∧ h.parent n = p
  | p, .node n bb x y => h.obj n = none ∧ h.bb n = bb ∧ h.parent n = p ∧ h.a n = some x.addr ∧ h.b n = some y.addr ∧ Holds h (some n) x ∧ Holds h (some n) y

/-- The addresses and leaves of a possibly empty tree. -/
def addrsO (t : Option (AT K)) : List Nat := (t.map AT.addrs).getD []
def leafsO (t : Option (AT K)) : List (Nat × Leaf K) := (t.map AT.leafs).getD []

/-- The memory of a tree is in order: the root leads to the tree `t`, the free list to the nodes `P`; no node is anywhere twice; the
table of leaves knows exactly the leaves of the tree, which belong to different shapes. -/
structure Sound (h : TH K) (t : Option (AT K)) (P : List Nat) : Prop where
  root : h.root = t.map AT.addr
  holds : ∀ t' ∈ t, Holds h none t'
  pool : Chain h.parent h.pooled P
  nodup : (addrsO t ++ P).Nodup
  made : ∀ n ∈ addrsO t ++ P, n < h.made
  stamps : ∀ n l, (n, l) ∈ leafsO t → h.stamp n = l.stamp
  leaves : ∀ i n, h.leaves i = some n ↔ ∃ l, (n, l) ∈ leafsO t ∧ l.id = i
  ids : ((leafsO t).map fun e => e.2.id).Nodup

/-- The memory holds the tree `t`. -/
def InMemory (h : TH K) (t : Option (BBTree.Tree K)) : Prop := ∃ T P, Sound h T P ∧ t = T.map AT.erase
end Spec
open Spec

/-! ### Trees in memory -/

theorem at_addr_mem (t : AT K) : t.addr ∈ t.addrs := by cases t <;> simp [AT.addr, AT.addrs]
theorem at_bb {h : TH K} {p : Option Nat} {t : AT K} (H : Holds h p t) : h.bb t.addr = t.erase.bb := by
  cases t with
  | leaf n l => exact H.2.1
  | node n bb x y => exact H.2.1
theorem at_parent {h : TH K} {p : Option Nat} {t : AT K} (H : Holds h p t) : h.parent t.addr = p := by
  cases t with
  | leaf n l => exact H.2.2
  | node n bb x y => exact H.2.2.1
theorem at_leafs : ∀ t : AT K, t.leafs.map Prod.snd = t.erase.leaves
  | .leaf n l => rfl
  | .node n bb x y => by simp [AT.leafs, AT.erase, BBTree.Tree.leaves, at_leafs x, at_leafs y]
theorem at_leafs_addr : ∀ (t : AT K) (e : Nat × Leaf K), e ∈ t.leafs → e.1 ∈ t.addrs
  | .leaf n l, e, he => by simp [AT.leafs] at he; subst he; simp [AT.addrs]
  | .node n bb x y, e, he => by
    simp only [AT.leafs, List.mem_append] at he
    simp only [AT.addrs, List.mem_cons, List.mem_append]
    rcases he with he | he
    · exact Or.inr (Or.inl (at_leafs_addr x e he))
    · exact Or.inr (Or.inr (at_leafs_addr y e he))
theorem at_leaf {h : TH K} : ∀ (t : AT K) (p : Option Nat) (n : Nat) (l : Leaf K), Holds h p t → (n, l) ∈ t.leafs → h.obj n = some l.id ∧ h.bb n = l.bb
  | .leaf m k, p, n, l, H, he => by
    simp only [AT.leafs, List.mem_singleton, Prod.mk.injEq] at he
    obtain ⟨rfl, rfl⟩ := he
    exact ⟨H.1, H.2.1⟩
  | .node m bb x y, p, n, l, H, he => by
    simp only [AT.leafs, List.mem_append] at he
    rcases he with he | he
    · exact at_leaf x _ n l H.2.2.2.2.2.1 he
    · exact at_leaf y _ n l H.2.2.2.2.2.2 he

/-- Only the fields of its own nodes matter to a tree; the pointer up from its top is free to change. -/
theorem holds_congr {h h' : TH K} : ∀ (t : AT K) (p p' : Option Nat), t.addrs.Nodup →
    (∀ n ∈ t.addrs, h'.obj n = h.obj n ∧ h'.bb n = h.bb n ∧ h'.a n = h.a n ∧ h'.b n = h.b n) →
    (∀ n ∈ t.addrs, n ≠ t.addr → h'.parent n = h.parent n) → h'.parent t.addr = p' → Holds h p t → Holds h' p' t
  | .leaf n l, p, p', _, hf, _, hp, H => by
    obtain ⟨f1, f2, _, _⟩ := hf n (by simp [AT.addrs])
    exact ⟨f1.trans H.1, f2.trans H.2.1, hp⟩
  | .node n bb x y, p, p', hn, hf, hpar, hp, H => by
    obtain ⟨f1, f2, f3, f4⟩ := hf n (by simp [AT.addrs])
    obtain ⟨H1, H2, H3, H4, H5, H6, H7⟩ := H
    simp only [AT.addrs, List.nodup_cons, List.mem_append, not_or] at hn
    obtain ⟨⟨hnx, hny⟩, hxy⟩ := hn
    have hsub : ∀ m, m ∈ x.addrs ∨ m ∈ y.addrs → m ∈ (AT.node n bb x y).addrs := fun m hm => by simp [AT.addrs, hm]
    have hne : ∀ m, m ∈ x.addrs ∨ m ∈ y.addrs → m ≠ n := fun m hm e => by subst e; rcases hm with hm | hm <;> contradiction
    refine ⟨f1.trans H1, f2.trans H2, hp, f3.trans H4, f4.trans H5, ?_, ?_⟩
    · refine holds_congr x (some n) (some n) hxy.of_append_left (fun m hm => hf m (hsub m (Or.inl hm)))
        (fun m hm _ => hpar m (hsub m (Or.inl hm)) (hne m (Or.inl hm))) ?_ H6
      rw [hpar _ (hsub _ (Or.inl (at_addr_mem x))) (hne _ (Or.inl (at_addr_mem x)))]
      exact at_parent H6
    · refine holds_congr y (some n) (some n) hxy.of_append_right (fun m hm => hf m (hsub m (Or.inr hm)))
        (fun m hm _ => hpar m (hsub m (Or.inr hm)) (hne m (Or.inr hm))) ?_ H7
      rw [hpar _ (hsub _ (Or.inr (at_addr_mem y))) (hne _ (Or.inr (at_addr_mem y)))]
      exact at_parent H7

/-- All fields of a node are the same. -/
def AgreeAt (h h' : TH K) (n : Nat) : Prop :=
  h'.obj n = h.obj n ∧ h'.bb n = h.bb n ∧ h'.a n = h.a n ∧ h'.b n = h.b n ∧ h'.parent n = h.parent n

theorem agree_trans {h h' h'' : TH K} {n : Nat} (h1 : AgreeAt h h' n) (h2 : AgreeAt h' h'' n) : AgreeAt h h'' n :=
  ⟨h2.1.trans h1.1, h2.2.1.trans h1.2.1, h2.2.2.1.trans h1.2.2.1, h2.2.2.2.1.trans h1.2.2.2.1, h2.2.2.2.2.trans h1.2.2.2.2⟩

theorem holds_agree {h h' : TH K} {t : AT K} {p : Option Nat} (hn : t.addrs.Nodup) (ha : ∀ n ∈ t.addrs, AgreeAt h h' n) (H : Holds h p t) : Holds h' p t :=
  holds_congr t p p hn (fun n hm => ⟨(ha n hm).1, (ha n hm).2.1, (ha n hm).2.2.1, (ha n hm).2.2.2.1⟩) (fun n hm _ => (ha n hm).2.2.2.2)
    ((ha _ (at_addr_mem t)).2.2.2.2.trans (at_parent H)) H

/-! ### Free nodes -/

/-- The free list. -/
structure Free (h : TH K) (P : List Nat) : Prop where
  chain : Chain h.parent h.pooled P
  nodup : P.Nodup
  made : ∀ n ∈ P, n < h.made

/-- From `h` to `h'` only the nodes of `U` and new ones were touched. -/
structure Kept (h h' : TH K) (U : List Nat) : Prop where
  made : h.made ≤ h'.made
  keep : ∀ n < h.made, n ∉ U → AgreeAt h h' n
  root : h'.root = h.root
  leaves : h'.leaves = h.leaves
  stamp : ∀ n < h.made, h'.stamp n = h.stamp n

theorem refill_free : ∀ (k : Nat) (h : TH K) (P : List Nat), Free h P →
    ∃ P', Free (refill k h) P' ∧ (∀ n ∈ P', n ∈ P ∨ h.made ≤ n) ∧ Kept h (refill k h) P
  | 0, h, P, H => ⟨P, H, fun n hn => Or.inl hn, le_refl _, fun n _ _ => ⟨rfl, rfl, rfl, rfl, rfl⟩, rfl, rfl, fun _ _ => rfl⟩
  | k + 1, h, P, H => by
    have hne : ∀ n, n < h.made → n ≠ h.made := fun n hn => by omega
    have h1 : Free (recycle (alloc h) h.made) (h.made :: P) := by
      refine ⟨⟨rfl, ?_⟩, List.nodup_cons.2 ⟨fun hc => by have := H.made _ hc; omega, H.nodup⟩, ?_⟩
      · have e : (recycle (alloc h) h.made).parent h.made = h.pooled := by simp [recycle, alloc, put]
        rw [e]
        refine chain_congr P _ (fun n hn => ?_) H.chain
        simp [recycle, alloc, put, hne n (H.made n hn)]
      · intro n hn
        show n < h.made + 1
        rcases List.mem_cons.1 hn with rfl | hn
        · omega
        · have := H.made n hn; omega
    obtain ⟨P', h2, h3, h4⟩ := refill_free k _ _ h1
    refine ⟨P', h2, fun n hn => ?_, ?_⟩
    · rcases h3 n hn with hh | hh
      · rcases List.mem_cons.1 hh with rfl | hh
        · exact Or.inr (le_refl _)
        · exact Or.inl hh
      · have : h.made + 1 ≤ n := hh
        exact Or.inr (by omega)
    · have hm : h.made + 1 ≤ (refill k (recycle (alloc h) h.made)).made := h4.made
      refine ⟨by show h.made ≤ (refill k (recycle (alloc h) h.made)).made; omega, fun n hn hP => ?_, h4.root, h4.leaves, fun n hn => ?_⟩
      · have := h4.keep n (by show n < h.made + 1; omega) (by simp [hne n hn, hP])
        exact agree_trans (by simp [AgreeAt, recycle, alloc, put, hne n hn]) this
      · have := h4.stamp n (by show n < h.made + 1; omega)
        exact this.trans (by simp [recycle, alloc, put, hne n hn])

theorem fromPool_free {h : TH K} {P : List Nat} (H : Free h P) :
    ∃ P', Free (fromPool h).1 P' ∧ (fromPool h).2 ∉ P' ∧ (fromPool h).2 < (fromPool h).1.made ∧ ((fromPool h).2 ∈ P ∨ h.made ≤ (fromPool h).2) ∧
      (∀ n ∈ P', n ∈ P ∨ h.made ≤ n) ∧ Kept h (fromPool h).1 P := by
  cases hp : h.pooled with
  | some m =>
    have e : fromPool h = ({ h with pooled := h.parent m }, m) := by simp only [fromPool, hp]
    rw [e]
    simp only
    have hc := H.chain
    rw [hp] at hc
    cases P with
    | nil => simp [Chain] at hc
    | cons q P =>
      obtain ⟨e, hc⟩ := hc
      rw [Option.some.injEq] at e
      subst e
      have hn := List.nodup_cons.1 H.nodup
      exact ⟨P, ⟨hc, hn.2, fun n hn => H.made n (by simp [hn])⟩, hn.1, H.made m (by simp), Or.inl (by simp), fun n hn => Or.inl (by simp [hn]),
        le_refl _, fun n _ _ => ⟨rfl, rfl, rfl, rfl, rfl⟩, rfl, rfl, fun _ _ => rfl⟩
  | none =>
    have hPn : P = [] := by
      have hc := H.chain
      rw [hp] at hc
      cases P with
      | nil => rfl
      | cons q P => simp [Chain] at hc
    subst hPn
    simp only [fromPool, hp]
    generalize HashHeap.pooledBufferSize = k
    obtain ⟨P', h2, h3, h4⟩ := refill_free k h [] H
    obtain ⟨g, hg⟩ : ∃ g, refill k h = g := ⟨_, rfl⟩
    rw [hg] at h2 h4 ⊢
    have hne : ∀ n, n < g.made → n ≠ g.made := fun n hn => by omega
    have hm := h4.made
    refine ⟨P', ⟨?_, h2.nodup, fun n hn => by have := h2.made n hn; simp only [alloc]; omega⟩, fun hc => by have := h2.made _ hc; omega, by simp only [alloc]; omega,
      Or.inr hm, h3, by simp only [alloc]; omega, fun n hn hP => ?_, h4.root, h4.leaves, fun n hn => ?_⟩
    · refine chain_congr P' _ (fun n hn => ?_) h2.chain
      simp [alloc, put, hne n (h2.made n hn)]
    · exact agree_trans (h4.keep n hn hP) (by simp [AgreeAt, alloc, put, hne n (by omega)])
    · exact Eq.trans (by simp [alloc, put, hne n (by omega)]) (h4.stamp n hn)

/-! ### Putting a leaf in -/

theorem at_nodup_node {n : Nat} {bb : BB K} {x y : AT K} (h : (AT.node n bb x y).addrs.Nodup) :
    n ∉ x.addrs ∧ n ∉ y.addrs ∧ x.addrs.Nodup ∧ y.addrs.Nodup ∧ ∀ m ∈ x.addrs, m ∉ y.addrs := by
  simp only [AT.addrs, List.nodup_cons, List.mem_append, not_or] at h
  exact ⟨h.1.1, h.1.2, h.2.of_append_left, h.2.of_append_right, fun m hx hy => List.disjoint_of_nodup_append h.2 hx hy⟩

/-- What an insertion below some node gives. `U` are the nodes it was given. -/
structure Grown (h : TH K) (U P : List Nat) (h' : TH K) (t' : AT K) (P' : List Nat) : Prop where
  free : Free h' P'
  nodup : t'.addrs.Nodup
  apart : ∀ n ∈ t'.addrs, n ∉ P'
  bound : ∀ n ∈ t'.addrs, n < h'.made
  source : ∀ n, n ∈ t'.addrs ∨ n ∈ P' → n ∈ U ∨ n ∈ P ∨ h.made ≤ n
  kept : Kept h h' (U ++ P)

theorem insertAt_grown (l : Leaf K) (leaf : Nat) : ∀ (t : AT K) (k : Nat) (h : TH K) (p : Option Nat) (P : List Nat), Holds h p t → Free h P →
    t.addrs.Nodup → (∀ n ∈ t.addrs, n ∉ P ∧ n < h.made ∧ n ≠ leaf) → leaf ∉ P → leaf < h.made → h.obj leaf = some l.id → h.bb leaf = l.bb →
    t.addrs.length ≤ k →
    ∃ h' t' P', insertAt k h t.addr leaf = some (h', t'.addr) ∧ t'.erase = t.erase.insert l ∧ t'.leafs.Perm ((leaf, l) :: t.leafs) ∧
      (∃ p', Holds h' p' t' ∧ (p' = none ∨ p' = p)) ∧ Grown h (leaf :: t.addrs) P h' t' P'
  | t, 0, h, p, P, H, F, hn, ht, hlP, hlm, ho, hb, hk => by
    have : 0 < t.addrs.length := List.length_pos_of_mem (at_addr_mem t)
    omega
  | .leaf m l', k + 1, h, p, P, H, F, hn, ht, hlP, hlm, ho, hb, hk => by
    obtain ⟨hmP, hmm, hml⟩ := ht m (by simp [AT.addrs])
    obtain ⟨P', F', n1, n2, n3, n4, n5⟩ := fromPool_free F
    obtain ⟨o1, o2, o3⟩ := H
    have e : insertAt (k + 1) h m leaf = some (newNode h leaf m) := by simp [insertAt, o1]
    obtain ⟨g, hg⟩ : ∃ g, fromPool h = g := ⟨_, rfl⟩
    rw [hg] at F' n1 n2 n3 n5
    obtain ⟨h1, n⟩ := g
    simp only at F' n1 n2 n3 n5
    have hln : leaf ≠ n := fun e => by subst e; rcases n3 with h | h; exact hlP h; omega
    have hmn : m ≠ n := fun e => by subst e; rcases n3 with h | h; exact hmP h; omega
    have al := n5.keep leaf hlm hlP
    have am := n5.keep m hmm hmP
    refine ⟨(newNode h leaf m).1, .node n (l.bb.merge l'.bb) (.leaf leaf l) (.leaf m l'), P', ?_, rfl, by simp [AT.leafs], ⟨none, ?_, Or.inl rfl⟩, ?_⟩
    · show insertAt (k + 1) h m leaf = _
      rw [e]
      simp only [newNode, hg, AT.addr]
    · simp only [newNode, hg, Holds, AT.addr, setA, setB]
      simp [put, hln, hmn, hml, hml.symm, Ne.symm hln, Ne.symm hmn, al.1, al.2.1, am.1, am.2.1, ho, hb, o1, o2]
    · simp only [newNode, hg, setA, setB]
      refine ⟨⟨chain_congr P' _ (fun x hx => ?_) F'.chain, F'.nodup, F'.made⟩, ?_, ?_, ?_, ?_, ⟨n5.made, fun x hx hU => ?_, n5.root, n5.leaves, n5.stamp⟩⟩
      · have x1 : x ≠ n := fun e => n1 (e ▸ hx)
        have x2 : x ≠ leaf := fun e => by subst e; rcases n4 _ hx with h | h; exact hlP h; omega
        have x3 : x ≠ m := fun e => by subst e; rcases n4 _ hx with h | h; exact hmP h; omega
        simp [put, x1, x2, x3]
      · simp [AT.addrs, Ne.symm hln, Ne.symm hmn, Ne.symm hml]
      · intro x hx
        simp only [AT.addrs, List.mem_cons, List.mem_append, List.not_mem_nil, or_false] at hx
        rcases hx with rfl | rfl | rfl
        · exact n1
        · intro hc; rcases n4 _ hc with h | h; exact hlP h; omega
        · intro hc; rcases n4 _ hc with h | h; exact hmP h; omega
      · intro x hx
        have := n5.made
        simp only [AT.addrs, List.mem_cons, List.mem_append, List.not_mem_nil, or_false] at hx
        rcases hx with rfl | rfl | rfl
        · exact n2
        · show _ < h1.made; omega
        · show _ < h1.made; omega
      · rintro x (hx | hx)
        · simp only [AT.addrs, List.mem_cons, List.mem_append, List.not_mem_nil, or_false] at hx
          rcases hx with rfl | rfl | rfl
          · exact Or.inr n3
          · exact Or.inl (by simp)
          · exact Or.inl (by simp [AT.addrs])
        · exact Or.inr (n4 x hx)
      · simp only [AT.addrs, List.mem_cons, List.mem_append, List.not_mem_nil, or_false, not_or] at hU
        obtain ⟨⟨x1, x2⟩, x3⟩ := hU
        have x4 : x ≠ n := fun e => by subst e; rcases n3 with h | h; exact x3 h; omega
        refine agree_trans (n5.keep x hx x3) ?_
        simp [AgreeAt, put, x1, x2, x4]
  | .node n bb x y, k + 1, h, p, P, H, F, hn, ht, hlP, hlm, ho, hb, hk => by
    obtain ⟨H1, H2, H3, H4, H5, H6, H7⟩ := H
    obtain ⟨d1, d2, d3, d4, d5⟩ := at_nodup_node hn
    have hk' : x.addrs.length ≤ k ∧ y.addrs.length ≤ k := by
      simp only [AT.addrs, List.length_cons, List.length_append] at hk; omega
    obtain ⟨hnP, hnm, hnl⟩ := ht n (by simp [AT.addrs])
    have htx : ∀ m ∈ x.addrs, m ∉ P ∧ m < h.made ∧ m ≠ leaf := fun m hm => ht m (by simp [AT.addrs, hm])
    have hty : ∀ m ∈ y.addrs, m ∉ P ∧ m < h.made ∧ m ≠ leaf := fun m hm => ht m (by simp [AT.addrs, hm])
    have ec : chooseB (h.bb x.addr) (h.bb y.addr) (h.bb leaf) = BBTree.Tree.goesRight x.erase y.erase l.bb := by
      rw [at_bb H6, at_bb H7, hb]; rfl
    by_cases hc : BBTree.Tree.goesRight x.erase y.erase l.bb = true
    · obtain ⟨h', t', P', r1, r2, r3, ⟨p', r4, r5⟩, G⟩ := insertAt_grown l leaf y k h (some n) P H7 F d4 hty hlP hlm ho hb hk'.2
      have ln : n ∉ t'.addrs := fun hc => by
        rcases G.source n (Or.inl hc) with h | h | h
        · rcases List.mem_cons.1 h with h | h; exact hnl h; exact d2 h
        · exact hnP h
        · omega
      have lnP : n ∉ P' := fun hc => by
        rcases G.source n (Or.inr hc) with h | h | h
        · rcases List.mem_cons.1 h with h | h; exact hnl h; exact d2 h
        · exact hnP h
        · omega
      have xt : ∀ m ∈ x.addrs, m ∉ t'.addrs ∧ m ∉ P' ∧ m ∉ (leaf :: y.addrs) ++ P := fun m hm => by
        obtain ⟨m1, m2, m3⟩ := htx m hm
        have hy := d5 m hm
        refine ⟨fun hc => ?_, fun hc => ?_, by simp [m1, m3, hy]⟩
        · rcases G.source m (Or.inl hc) with h | h | h
          · rcases List.mem_cons.1 h with h | h; exact m3 h; exact hy h
          · exact m1 h
          · omega
        · rcases G.source m (Or.inr hc) with h | h | h
          · rcases List.mem_cons.1 h with h | h; exact m3 h; exact hy h
          · exact m1 h
          · omega
      have an := G.kept.keep n hnm (by simp [hnl, d2, hnP])
      have el : h'.bb leaf = l.bb := (at_leaf t' p' leaf l r4 (r3.mem_iff.2 (by simp))).2
      have tn : t'.addr ≠ n := fun e => ln (e ▸ at_addr_mem t')
      refine ⟨{ setB h' n t'.addr with bb := put h'.bb n ((h'.bb n).merge (h'.bb leaf)) }, .node n (bb.merge l.bb) x t', P', ?_, ?_, ?_, ⟨p, ?_, Or.inr rfl⟩, ?_⟩
      · show insertAt (k + 1) h n leaf = _
        simp only [insertAt, H1, Option.isSome_none, H4, H5, ec, hc, r1]
        simp [setB, AT.addr]
      · simp only [AT.erase, BBTree.Tree.insert, hc, r2, if_true]
      · simp only [AT.leafs]
        exact (r3.append_left _).trans List.perm_middle
      · refine ⟨an.1.trans H1, ?_, ?_, ?_, ?_, ?_, ?_⟩
        · show put h'.bb n ((h'.bb n).merge (h'.bb leaf)) n = _
          rw [put_self, an.2.1, H2, el]
        · show put h'.parent t'.addr (some n) n = p
          rw [put_ne _ _ (Ne.symm tn), an.2.2.2.2, H3]
        · exact an.2.2.1.trans H4
        · exact put_self _ _ _
        · refine holds_agree d3 (fun m hm => ?_) H6
          obtain ⟨m1, m2, m3⟩ := xt m hm
          have mn : m ≠ n := fun e => d1 (e ▸ hm)
          have mt : m ≠ t'.addr := fun e => m1 (e ▸ at_addr_mem t')
          refine agree_trans (G.kept.keep m (htx m hm).2.1 m3) ?_
          simp [AgreeAt, setB, put, mn, mt]
        · refine holds_congr t' p' (some n) G.nodup (fun m hm => ?_) (fun m hm hne => ?_) (put_self _ _ _) r4
          · have mn : m ≠ n := fun e => ln (e ▸ hm)
            simp [setB, put, mn]
          · exact put_ne _ _ hne
      · refine ⟨⟨chain_congr P' _ (fun m hm => ?_) G.free.chain, G.free.nodup, G.free.made⟩, ?_, ?_, ?_, ?_, ⟨G.kept.made, fun m hm hU => ?_, G.kept.root, G.kept.leaves, G.kept.stamp⟩⟩
        · have : m ≠ t'.addr := fun e => G.apart _ (at_addr_mem t') (e ▸ hm)
          exact put_ne _ _ this
        · simp only [AT.addrs, List.nodup_cons, List.mem_append, not_or]
          exact ⟨⟨d1, ln⟩, d3.append G.nodup fun m hx ht => (xt m hx).1 ht⟩
        · intro m hm
          simp only [AT.addrs, List.mem_cons, List.mem_append] at hm
          rcases hm with rfl | hm | hm
          · exact lnP
          · exact (xt m hm).2.1
          · exact G.apart m hm
        · intro m hm
          have := G.kept.made
          simp only [AT.addrs, List.mem_cons, List.mem_append] at hm
          rcases hm with rfl | hm | hm
          · exact lt_of_lt_of_le hnm this
          · exact lt_of_lt_of_le (htx m hm).2.1 this
          · exact G.bound m hm
        · have key : ∀ m, m ∈ t'.addrs ∨ m ∈ P' → m ∈ leaf :: (AT.node n bb x y).addrs ∨ m ∈ P ∨ h.made ≤ m := fun m hm => by
            rcases G.source m hm with h | h | h
            · left; rcases List.mem_cons.1 h with h | h <;> simp [AT.addrs, h]
            · exact Or.inr (Or.inl h)
            · exact Or.inr (Or.inr h)
          rintro m (hm | hm)
          · simp only [AT.addrs, List.mem_cons, List.mem_append] at hm
            rcases hm with rfl | hm | hm
            · left; simp [AT.addrs]
            · left; simp [AT.addrs, hm]
            · exact key m (Or.inl hm)
          · exact key m (Or.inr hm)
        · simp only [AT.addrs, List.mem_cons, List.mem_append, not_or] at hU
          obtain ⟨⟨u1, u2, u3, u4⟩, u5⟩ := hU
          have mt : m ≠ t'.addr := fun e => by
            rcases G.source m (Or.inl (e ▸ at_addr_mem t')) with h | h | h
            · rcases List.mem_cons.1 h with h | h; exact u1 h; exact u4 h
            · exact u5 h
            · omega
          refine agree_trans (G.kept.keep m hm (by simp [u1, u4, u5])) ?_
          simp [AgreeAt, setB, put, u2, mt]
    · obtain ⟨h', t', P', r1, r2, r3, ⟨p', r4, r5⟩, G⟩ := insertAt_grown l leaf x k h (some n) P H6 F d3 htx hlP hlm ho hb hk'.1
      have ln : n ∉ t'.addrs := fun hc => by
        rcases G.source n (Or.inl hc) with h | h | h
        · rcases List.mem_cons.1 h with h | h; exact hnl h; exact d1 h
        · exact hnP h
        · omega
      have lnP : n ∉ P' := fun hc => by
        rcases G.source n (Or.inr hc) with h | h | h
        · rcases List.mem_cons.1 h with h | h; exact hnl h; exact d1 h
        · exact hnP h
        · omega
      have xt : ∀ m ∈ y.addrs, m ∉ t'.addrs ∧ m ∉ P' ∧ m ∉ (leaf :: x.addrs) ++ P := fun m hm => by
        obtain ⟨m1, m2, m3⟩ := hty m hm
        have hy : m ∉ x.addrs := fun hx => d5 m hx hm
        refine ⟨fun hc => ?_, fun hc => ?_, by simp [m1, m3, hy]⟩
        · rcases G.source m (Or.inl hc) with h | h | h
          · rcases List.mem_cons.1 h with h | h; exact m3 h; exact hy h
          · exact m1 h
          · omega
        · rcases G.source m (Or.inr hc) with h | h | h
          · rcases List.mem_cons.1 h with h | h; exact m3 h; exact hy h
          · exact m1 h
          · omega
      have an := G.kept.keep n hnm (by simp [hnl, d1, hnP])
      have el : h'.bb leaf = l.bb := (at_leaf t' p' leaf l r4 (r3.mem_iff.2 (by simp))).2
      have tn : t'.addr ≠ n := fun e => ln (e ▸ at_addr_mem t')
      refine ⟨{ setA h' n t'.addr with bb := put h'.bb n ((h'.bb n).merge (h'.bb leaf)) }, .node n (bb.merge l.bb) t' y, P', ?_, ?_, ?_, ⟨p, ?_, Or.inr rfl⟩, ?_⟩
      · show insertAt (k + 1) h n leaf = _
        simp only [insertAt, H1, Option.isSome_none, H4, H5, ec, hc, r1]
        simp [setA, AT.addr]
      · simp only [AT.erase, BBTree.Tree.insert, hc, r2, if_false]; rfl
      · simp only [AT.leafs]
        exact r3.append_right _
      · refine ⟨an.1.trans H1, ?_, ?_, ?_, ?_, ?_, ?_⟩
        · show put h'.bb n ((h'.bb n).merge (h'.bb leaf)) n = _
          rw [put_self, an.2.1, H2, el]
        · show put h'.parent t'.addr (some n) n = p
          rw [put_ne _ _ (Ne.symm tn), an.2.2.2.2, H3]
        · exact put_self _ _ _
        · exact an.2.2.2.1.trans H5
        · refine holds_congr t' p' (some n) G.nodup (fun m hm => ?_) (fun m hm hne => ?_) (put_self _ _ _) r4
          · have mn : m ≠ n := fun e => ln (e ▸ hm)
            simp [setA, put, mn]
          · exact put_ne _ _ hne
        · refine holds_agree d4 (fun m hm => ?_) H7
          obtain ⟨m1, m2, m3⟩ := xt m hm
          have mn : m ≠ n := fun e => d2 (e ▸ hm)
          have mt : m ≠ t'.addr := fun e => m1 (e ▸ at_addr_mem t')
          refine agree_trans (G.kept.keep m (hty m hm).2.1 m3) ?_
          simp [AgreeAt, setA, put, mn, mt]
      · refine ⟨⟨chain_congr P' _ (fun m hm => ?_) G.free.chain, G.free.nodup, G.free.made⟩, ?_, ?_, ?_, ?_, ⟨G.kept.made, fun m hm hU => ?_, G.kept.root, G.kept.leaves, G.kept.stamp⟩⟩
        · have : m ≠ t'.addr := fun e => G.apart _ (at_addr_mem t') (e ▸ hm)
          exact put_ne _ _ this
        · simp only [AT.addrs, List.nodup_cons, List.mem_append, not_or]
          exact ⟨⟨ln, d2⟩, G.nodup.append d4 fun m ht hy => (xt m hy).1 ht⟩
        · intro m hm
          simp only [AT.addrs, List.mem_cons, List.mem_append] at hm
          rcases hm with rfl | hm | hm
          · exact lnP
          · exact G.apart m hm
          · exact (xt m hm).2.1
        · intro m hm
          have := G.kept.made
          simp only [AT.addrs, List.mem_cons, List.mem_append] at hm
          rcases hm with rfl | hm | hm
          · exact lt_of_lt_of_le hnm this
          · exact G.bound m hm
          · exact lt_of_lt_of_le (hty m hm).2.1 this
        · have key : ∀ m, m ∈ t'.addrs ∨ m ∈ P' → m ∈ leaf :: (AT.node n bb x y).addrs ∨ m ∈ P ∨ h.made ≤ m := fun m hm => by
            rcases G.source m hm with h | h | h
            · left; rcases List.mem_cons.1 h with h | h <;> simp [AT.addrs, h]
            · exact Or.inr (Or.inl h)
            · exact Or.inr (Or.inr h)
          rintro m (hm | hm)
          · simp only [AT.addrs, List.mem_cons, List.mem_append] at hm
            rcases hm with rfl | hm | hm
            · left; simp [AT.addrs]
            · exact key m (Or.inl hm)
            · left; simp [AT.addrs, hm]
          · exact key m (Or.inr hm)
        · simp only [AT.addrs, List.mem_cons, List.mem_append, not_or] at hU
          obtain ⟨⟨u1, u2, u3, u4⟩, u5⟩ := hU
          have mt : m ≠ t'.addr := fun e => by
            rcases G.source m (Or.inl (e ▸ at_addr_mem t')) with h | h | h
            · rcases List.mem_cons.1 h with h | h; exact u1 h; exact u3 h
            · exact u5 h
            · omega
          refine agree_trans (G.kept.keep m hm (by simp [u1, u3, u5])) ?_
          simp [AgreeAt, setA, put, u2, mt]

/-! ### The way from a leaf to the root -/

/-- A node on the way from a leaf to the root: is the way through its `b` child, its address, its box, its other child. -/
structure Frame (K : Type) where
  viaB : Bool
  n : Nat
  bb : BB K
  sib : AT K

namespace Frame
def fill (f : Frame K) (t : AT K) : AT K := if f.viaB then .node f.n f.bb f.sib t else .node f.n f.bb t f.sib
/-- The same with the box computed anew. -/
def fit (f : Frame K) (t : AT K) : AT K :=
  if f.viaB then .node f.n (f.sib.erase.bb.merge t.erase.bb) f.sib t else .node f.n (t.erase.bb.merge f.sib.erase.bb) t f.sib
end Frame

def plug : List (Frame K) → AT K → AT K
  | [], t => t
  | f :: fs, t => plug fs (f.fill t)
def plugFit : List (Frame K) → AT K → AT K
  | [], t => t
  | f :: fs, t => plugFit fs (f.fit t)
/-- The first node on the way. -/
def topOf : List (Frame K) → Option Nat
  | [] => none
  | f :: _ => some f.n
def wayAddrs : List (Frame K) → List Nat
  | [] => []
  | f :: fs => f.n :: (f.sib.addrs ++ wayAddrs fs)
def wayLeafs : List (Frame K) → List (Nat × Leaf K)
  | [] => []
  | f :: fs => f.sib.leafs ++ wayLeafs fs

/-- The memory holds the way above the node `c`. -/
def HoldsUp (h : TH K) : List (Frame K) → Nat → Prop
  | [], _ => True
  | f :: fs, c => h.obj f.n = none ∧ h.bb f.n = f.bb ∧ h.parent f.n = topOf fs ∧ h.a f.n = some (if f.viaB then f.sib.addr else c) ∧
      h.b f.n = some (if f.viaB then c else f.sib.addr) ∧ Holds h (some f.n) f.sib ∧ HoldsUp h fs f.n

theorem fill_addr (f : Frame K) (t : AT K) : (f.fill t).addr = f.n := by unfold Frame.fill; split <;> rfl
theorem fit_addr (f : Frame K) (t : AT K) : (f.fit t).addr = f.n := by unfold Frame.fit; split <;> rfl

theorem holds_plug {h : TH K} : ∀ (fs : List (Frame K)) (t : AT K), Holds h none (plug fs t) ↔ HoldsUp h fs t.addr ∧ Holds h (topOf fs) t
  | [], t => by simp [plug, HoldsUp, topOf]
  | f :: fs, t => by
    rw [plug, holds_plug fs (f.fill t), fill_addr]
    simp only [HoldsUp, topOf]
    by_cases hb : f.viaB = true
    · simp only [Frame.fill, Holds, hb, if_true]; tauto
    · simp only [Frame.fill, Holds, hb, Bool.false_eq_true, if_false]; tauto

theorem plug_addrs : ∀ (fs : List (Frame K)) (t : AT K), (plug fs t).addrs.Perm (t.addrs ++ wayAddrs fs)
  | [], t => by simp [plug, wayAddrs]
  | f :: fs, t => by
    refine (plug_addrs fs _).trans ?_
    rw [wayAddrs]
    have : (f.fill t).addrs.Perm (f.n :: (t.addrs ++ f.sib.addrs)) := by
      unfold Frame.fill
      split
      · simp only [AT.addrs]
        exact List.Perm.cons _ List.perm_append_comm
      · simp only [AT.addrs]
        exact List.Perm.refl _
    refine (this.append_right _).trans ?_
    rw [List.cons_append, List.append_assoc]
    exact List.perm_middle.symm

theorem fit_addrs_perm (f : Frame K) (t : AT K) : (f.fit t).addrs.Perm (f.n :: (t.addrs ++ f.sib.addrs)) := by
  unfold Frame.fit
  split
  · simp only [AT.addrs]
    exact List.Perm.cons _ List.perm_append_comm
  · simp only [AT.addrs]
    exact List.Perm.refl _

theorem plugFit_addrs : ∀ (fs : List (Frame K)) (t : AT K), (plugFit fs t).addrs.Perm (t.addrs ++ wayAddrs fs)
  | [], t => by simp [plugFit, wayAddrs]
  | f :: fs, t => by
    refine (plugFit_addrs fs _).trans ?_
    rw [wayAddrs]
    refine ((fit_addrs_perm f t).append_right _).trans ?_
    rw [List.cons_append, List.append_assoc]
    exact List.perm_middle.symm

theorem plug_leafs : ∀ (fs : List (Frame K)) (t : AT K), (plug fs t).leafs.Perm (t.leafs ++ wayLeafs fs)
  | [], t => by simp [plug, wayLeafs]
  | f :: fs, t => by
    refine (plug_leafs fs _).trans ?_
    rw [wayLeafs, ← List.append_assoc]
    refine List.Perm.append_right _ ?_
    unfold Frame.fill
    split
    · exact List.perm_append_comm
    · exact List.Perm.refl _

theorem plugFit_leafs : ∀ (fs : List (Frame K)) (t : AT K), (plugFit fs t).leafs.Perm (t.leafs ++ wayLeafs fs)
  | [], t => by simp [plugFit, wayLeafs]
  | f :: fs, t => by
    refine (plugFit_leafs fs _).trans ?_
    rw [wayLeafs, ← List.append_assoc]
    refine List.Perm.append_right _ ?_
    unfold Frame.fit
    split
    · exact List.perm_append_comm
    · exact List.Perm.refl _

theorem plug_snoc : ∀ (fs : List (Frame K)) (f : Frame K) (t : AT K), plug (fs ++ [f]) t = f.fill (plug fs t)
  | [], f, t => rfl
  | g :: fs, f, t => by
    rw [List.cons_append, plug, plug_snoc fs f, plug]

/-- Every leaf of a tree is at the end of a way. -/
theorem way_to_leaf : ∀ (t : AT K) (n : Nat) (l : Leaf K), (n, l) ∈ t.leafs → ∃ fs, t = plug fs (.leaf n l)
  | .leaf m k, n, l, h => by
    simp only [AT.leafs, List.mem_singleton, Prod.mk.injEq] at h
    obtain ⟨rfl, rfl⟩ := h
    exact ⟨[], rfl⟩
  | .node m bb x y, n, l, h => by
    simp only [AT.leafs, List.mem_append] at h
    rcases h with h | h
    · obtain ⟨fs, e⟩ := way_to_leaf x n l h
      exact ⟨fs ++ [⟨false, m, bb, y⟩], by rw [plug_snoc, ← e]; rfl⟩
    · obtain ⟨fs, e⟩ := way_to_leaf y n l h
      exact ⟨fs ++ [⟨true, m, bb, x⟩], by rw [plug_snoc, ← e]; rfl⟩

theorem plug_addr_eq : ∀ (fs : List (Frame K)) (f : Frame K) (t t' : AT K), (plugFit (f :: fs) t).addr = (plug (f :: fs) t').addr
  | [], f, t, t' => by simp [plugFit, plug, fit_addr, fill_addr]
  | g :: fs, f, t, t' => by
    rw [plugFit, plug]
    exact plug_addr_eq fs g _ _

theorem plug_addr_mem : ∀ (fs : List (Frame K)) (f : Frame K) (t : AT K), (plug (f :: fs) t).addr ∈ wayAddrs (f :: fs)
  | [], f, t => by simp [plug, fill_addr, wayAddrs]
  | g :: fs, f, t => by
    rw [plug]
    have := plug_addr_mem fs g (f.fill t)
    rw [wayAddrs]
    simp [this]

theorem holdsUp_agree {h h' : TH K} : ∀ (fs : List (Frame K)) (c : Nat), (wayAddrs fs).Nodup → (∀ n ∈ wayAddrs fs, AgreeAt h h' n) → HoldsUp h fs c → HoldsUp h' fs c
  | [], c, _, _, _ => trivial
  | f :: fs, c, hn, ha, H => by
    simp only [wayAddrs, List.nodup_cons, List.mem_append, not_or] at hn
    obtain ⟨a1, a2, a3, a4, a5⟩ := ha f.n (by simp [wayAddrs])
    obtain ⟨H1, H2, H3, H4, H5, H6, H7⟩ := H
    refine ⟨a1.trans H1, a2.trans H2, a5.trans H3, a3.trans H4, a4.trans H5, ?_, ?_⟩
    · exact holds_agree hn.2.of_append_left (fun n hn => ha n (by simp [wayAddrs, hn])) H6
    · exact holdsUp_agree fs f.n hn.2.of_append_right (fun n hn => ha n (by simp [wayAddrs, hn])) H7

theorem way_length : ∀ (fs : List (Frame K)), fs.length ≤ (wayAddrs fs).length
  | [] => by simp
  | f :: fs => by simp only [wayAddrs, List.length_cons, List.length_append]; have := way_length fs; omega

/-! ### Computing the boxes anew -/

theorem refit_way : ∀ (fs : List (Frame K)) (t : AT K) (k : Nat) (h : TH K), HoldsUp h fs t.addr → Holds h (topOf fs) t → (t.addrs ++ wayAddrs fs).Nodup →
    fs.length < k → ∃ bb', refit k h (topOf fs) = some { h with bb := bb' } ∧ Holds { h with bb := bb' } none (plugFit fs t) ∧ ∀ n ∉ wayAddrs fs, bb' n = h.bb n
  | [], t, 0, h, _, _, _, hk => by simp at hk
  | [], t, k + 1, h, _, H, _, _ => ⟨h.bb, rfl, H, fun _ _ => rfl⟩
  | f :: fs, t, 0, h, _, _, _, hk => by simp at hk
  | f :: fs, t, k + 1, h, HU, H, hn, hk => by
    obtain ⟨H1, H2, H3, H4, H5, H6, H7⟩ := HU
    have hn' := hn
    simp only [wayAddrs] at hn
    have hp := (List.Perm.nodup_iff List.perm_middle).1 hn
    rw [List.nodup_cons] at hp
    obtain ⟨q1, q2⟩ := hp
    simp only [List.mem_append, not_or] at q1
    obtain ⟨nt, ns, nw⟩ := q1
    have e4 := at_bb H6
    have e5 := at_bb H
    have key : ∃ x y, h.a f.n = some x ∧ h.b f.n = some y ∧ (f.fit t).erase.bb = (h.bb x).merge (h.bb y) := by
      by_cases hb : f.viaB = true
      · exact ⟨_, _, by rw [H4, if_pos hb], by rw [H5, if_pos hb], by rw [e4, e5]; simp [Frame.fit, hb, AT.erase, BBTree.Tree.bb]⟩
      · exact ⟨_, _, by rw [H4, if_neg hb], by rw [H5, if_neg hb], by rw [e4, e5]; simp [Frame.fit, hb, AT.erase, BBTree.Tree.bb]⟩
    obtain ⟨x, y, k1, k2, k3⟩ := key
    have agree : ∀ n, n ≠ f.n → AgreeAt h { h with bb := put h.bb f.n ((h.bb x).merge (h.bb y)) } n := fun n hne => by
      simp [AgreeAt, put, hne]
    have hsn : f.sib.addrs.Nodup := q2.of_append_right.of_append_left
    have Hs : Holds { h with bb := put h.bb f.n ((h.bb x).merge (h.bb y)) } (some f.n) f.sib :=
      holds_agree hsn (fun n hm => agree n fun e => ns (e ▸ hm)) H6
    have Ht : Holds { h with bb := put h.bb f.n ((h.bb x).merge (h.bb y)) } (some f.n) t :=
      holds_agree q2.of_append_left (fun n hm => agree n fun e => nt (e ▸ hm)) H
    have Hf : Holds { h with bb := put h.bb f.n ((h.bb x).merge (h.bb y)) } (topOf fs) (f.fit t) := by
      by_cases hb : f.viaB = true
      · simp only [Frame.fit, hb, if_true, Holds] at k3 ⊢
        rw [if_pos hb] at H4 H5
        exact ⟨H1, (put_self _ _ _).trans k3.symm, H3, H4, H5, Hs, Ht⟩
      · simp only [Frame.fit, hb, Bool.false_eq_true, if_false, Holds] at k3 ⊢
        rw [if_neg hb] at H4 H5
        exact ⟨H1, (put_self _ _ _).trans k3.symm, H3, H4, H5, Ht, Hs⟩
    have Hup : HoldsUp { h with bb := put h.bb f.n ((h.bb x).merge (h.bb y)) } fs (f.fit t).addr := by
      rw [fit_addr]
      exact holdsUp_agree fs f.n q2.of_append_right.of_append_right (fun n hm => agree n fun e => nw (e ▸ hm)) H7
    have hnd : ((f.fit t).addrs ++ wayAddrs fs).Nodup := by
      refine (List.Perm.nodup_iff ?_).1 hn'
      rw [wayAddrs]
      refine List.perm_middle.trans ?_
      refine List.Perm.trans ?_ ((fit_addrs_perm f t).symm.append_right _)
      rw [List.cons_append, List.append_assoc]
    obtain ⟨bb', r1, r2, r3⟩ := refit_way fs (f.fit t) k _ Hup Hf hnd (by simp at hk; omega)
    refine ⟨bb', ?_, r2, fun n hn => ?_⟩
    · rw [topOf, refit, k1, k2]
      simp only [H3]
      exact r1
    · simp only [wayAddrs, List.mem_cons, List.mem_append, not_or] at hn
      rw [r3 n hn.2.2]
      exact put_ne _ _ hn.1

/-! ### Taking a leaf out -/

theorem other_sib {h : TH K} {f : Frame K} {fs : List (Frame K)} {c : Nat} (HU : HoldsUp h (f :: fs) c) (hc : c ∉ wayAddrs (f :: fs)) :
    other h f.n c = some f.sib.addr := by
  obtain ⟨H1, H2, H3, H4, H5, H6, H7⟩ := HU
  have hne : f.sib.addr ≠ c := fun e => hc (by rw [wayAddrs]; simp [← e, at_addr_mem])
  unfold other
  by_cases hb : f.viaB = true
  · rw [if_pos hb] at H4 H5
    rw [if_neg (by rw [H4, Option.some.injEq]; exact hne), H4]
  · rw [if_neg hb] at H4 H5
    rw [if_pos H4, H5]

/-- What `SubtreeRemove` leaves: nothing for the only leaf. -/
def removed : List (Frame K) → Option (AT K)
  | [] => none
  | f :: fs => some (plugFit fs f.sib)
def freed : List (Frame K) → List Nat
  | [] => []
  | f :: _ => [f.n]

theorem removeSub_way (fs : List (Frame K)) (l : Leaf K) (c : Nat) (h : TH K) (P : List Nat) (HU : HoldsUp h fs c) (hp : h.parent c = topOf fs)
    (hn : (c :: wayAddrs fs ++ P).Nodup) (hm : ∀ n ∈ c :: wayAddrs fs ++ P, n < h.made) (hC : Chain h.parent h.pooled P) :
    ∃ h', removeSub h (some (plug fs (.leaf c l)).addr) c = some (h', (removed fs).map AT.addr) ∧ (∀ t ∈ removed fs, Holds h' none t) ∧
      Chain h'.parent h'.pooled (freed fs ++ P) ∧ h'.obj = h.obj ∧ h'.stamp = h.stamp ∧ h'.leaves = h.leaves ∧ h'.root = h.root ∧ h'.made = h.made ∧
      h'.bb c = h.bb c ∧ (fs = [] → h'.parent c = none) := by
  cases fs with
  | nil =>
    refine ⟨h, ?_, by simp [removed], by simpa [freed] using hC, rfl, rfl, rfl, rfl, rfl, rfl, fun _ => hp⟩
    simp [removeSub, plug, AT.addr, removed]
  | cons f fs =>
    have hcw : c ∉ wayAddrs (f :: fs) := by
      have := (List.nodup_cons.1 hn).1
      exact fun h => this (by simp [h])
    have hw : (wayAddrs (f :: fs)).Nodup := (List.nodup_cons.1 hn).2.of_append_left
    have hPn : P.Nodup := (List.nodup_cons.1 hn).2.of_append_right
    have hwP : ∀ n ∈ wayAddrs (f :: fs), n ∉ P := fun n h1 h2 => List.disjoint_of_nodup_append (List.nodup_cons.1 hn).2 h1 h2
    have hr : (plug (f :: fs) (.leaf c l)).addr ≠ c := fun e => hcw (e ▸ plug_addr_mem fs f (.leaf c l))
    have ho := other_sib HU hcw
    obtain ⟨H1, H2, H3, H4, H5, H6, H7⟩ := HU
    have hw' := hw
    simp only [wayAddrs, List.nodup_cons, List.mem_append, not_or] at hw'
    obtain ⟨⟨fs1, fs2⟩, hsw⟩ := hw'
    have hfP : f.n ∉ P := hwP _ (by simp [wayAddrs])
    have hsn : f.sib.addr ≠ f.n := fun e => fs1 (e ▸ at_addr_mem f.sib)
    have hsP : f.sib.addr ∉ P := hwP _ (by simp [wayAddrs, at_addr_mem])
    have hcf : c ≠ f.n := fun e => hcw (by simp [wayAddrs, e])
    cases fs with
    | nil =>
      refine ⟨recycle { h with parent := put h.parent f.sib.addr (h.parent f.n) } f.n, ?_, ?_, ?_, rfl, rfl, rfl, rfl, rfl, rfl, by simp⟩
      · have e : (plug [f] (.leaf c l)).addr = f.n := by simp [plug, fill_addr]
        rw [e] at hr ⊢
        simp only [removeSub, Option.some.injEq, hr, if_false, hp, topOf, if_true, ho]
        simp [removed, plugFit]
      · intro t ht
        simp only [removed, plugFit, Option.mem_def, Option.some.injEq] at ht
        subst ht
        refine holds_congr (h := h) f.sib (some f.n) none hsw.of_append_left (fun n _ => ⟨rfl, rfl, rfl, rfl⟩) (fun n hn hne => ?_) ?_ H6
        · have : n ≠ f.n := fun e => fs1 (e ▸ hn)
          simp [recycle, put, this, hne]
        · simp [recycle, put, hsn, H3, topOf]
      · refine ⟨rfl, ?_⟩
        have e : (recycle { h with parent := put h.parent f.sib.addr (h.parent f.n) } f.n).parent f.n = h.pooled := by simp [recycle, put]
        rw [e]
        refine chain_congr P _ (fun n hn => ?_) hC
        have n1 : n ≠ f.n := fun e => hfP (e ▸ hn)
        have n2 : n ≠ f.sib.addr := fun e => hsP (e ▸ hn)
        simp [recycle, put, n1, n2]
    | cons g fs =>
      have hrf : f.n ≠ (plug (f :: g :: fs) (.leaf c l)).addr := fun e => by
        refine fs2 ?_
        rw [e, plug]
        exact plug_addr_mem fs g _
      obtain ⟨G1, G2, G3, G4, G5, G6, G7⟩ := H7
      have hgf : g.n ≠ f.n := fun e => fs2 (by simp [wayAddrs, ← e])
      have hsg : f.sib.addr ≠ g.n := fun e => List.disjoint_of_nodup_append hsw (at_addr_mem f.sib) (by simp [wayAddrs, e])
      have hgs : g.sib.addr ≠ f.n := fun e => fs2 (by simp [wayAddrs, ← e, at_addr_mem])
      have hcg : c ≠ g.n := fun e => hcw (by simp [wayAddrs, e])
      -- the memory after the child was replaced
      obtain ⟨h1, hh1⟩ : ∃ h1 : TH K, h1 = (if g.viaB then setB (recycle h f.n) g.n f.sib.addr else setA (recycle h f.n) g.n f.sib.addr) := ⟨_, rfl⟩
      have f1 : h1.obj = h.obj ∧ h1.bb = h.bb ∧ h1.stamp = h.stamp ∧ h1.leaves = h.leaves ∧ h1.root = h.root ∧ h1.made = h.made ∧ h1.pooled = some f.n := by
        rw [hh1]; split <;> simp [setA, setB, recycle]
      have f2 : ∀ n, n ≠ f.n → n ≠ f.sib.addr → h1.parent n = h.parent n := fun n n1 n2 => by
        rw [hh1]; split <;> simp [setA, setB, recycle, put, n1, n2]
      have f3 : h1.parent f.sib.addr = some g.n := by
        rw [hh1]; split <;> simp [setA, setB, recycle, put]
      have f4 : h1.parent f.n = h.pooled := by
        rw [hh1]; split <;> simp [setA, setB, recycle, put, hsn, Ne.symm hsn]
      have f5 : ∀ n, n ≠ g.n → h1.a n = h.a n ∧ h1.b n = h.b n := fun n n1 => by
        rw [hh1]; split <;> simp [setA, setB, recycle, put, n1]
      have f6 : h1.a g.n = some (if g.viaB then g.sib.addr else f.sib.addr) ∧ h1.b g.n = some (if g.viaB then f.sib.addr else g.sib.addr) := by
        rw [hh1]
        by_cases hb : g.viaB = true
        · rw [if_pos hb] at G4
          simp [hb, setB, recycle, put, G4]
        · rw [if_neg hb] at G5
          simp [hb, setA, recycle, put, G5]
      have agree : ∀ n, n ≠ f.n → n ≠ f.sib.addr → n ≠ g.n → AgreeAt h h1 n := fun n n1 n2 n3 =>
        ⟨by rw [f1.1], by rw [f1.2.1], (f5 n n3).1, (f5 n n3).2, f2 n n1 n2⟩
      have hsn' : f.sib.addrs.Nodup := hsw.of_append_left
      have hwn := hsw.of_append_right
      have hwn' := hwn
      simp only [wayAddrs, List.nodup_cons, List.mem_append, not_or] at hwn'
      obtain ⟨⟨gs1, gs2⟩, hgw⟩ := hwn'
      have disj : ∀ n ∈ f.sib.addrs, n ∉ wayAddrs (g :: fs) := fun n a b => List.disjoint_of_nodup_append hsw a b
      have Ht : Holds h1 (some g.n) f.sib := by
        refine holds_congr f.sib (some f.n) (some g.n) hsn' (fun n hn => ?_) (fun n hn hne => ?_) f3 H6
        · have n3 : n ≠ g.n := fun e => disj n hn (by simp [wayAddrs, e])
          exact ⟨by rw [f1.1], by rw [f1.2.1], (f5 n n3).1, (f5 n n3).2⟩
        · exact f2 n (fun e => fs1 (e ▸ hn)) hne
      have HU1 : HoldsUp h1 (g :: fs) f.sib.addr := by
        have sub : ∀ n, n ∈ g.sib.addrs ∨ n ∈ wayAddrs fs → AgreeAt h h1 n := fun n hn => by
          refine agree n (fun e => fs2 ?_) (fun e => disj f.sib.addr (at_addr_mem _) ?_) fun e => ?_
          · rw [wayAddrs]; rcases hn with hn | hn <;> simp [← e, hn]
          · rw [wayAddrs]; rcases hn with hn | hn <;> simp [← e, hn]
          · subst e; rcases hn with hn | hn; exact gs1 hn; exact gs2 hn
        refine ⟨by rw [f1.1]; exact G1, by rw [f1.2.1]; exact G2, ?_, f6.1, f6.2, ?_, ?_⟩
        · rw [f2 _ hgf (Ne.symm hsg)]; exact G3
        · exact holds_agree hgw.of_append_left (fun n hn => sub n (Or.inl hn)) G6
        · exact holdsUp_agree fs g.n hgw.of_append_right (fun n hn => sub n (Or.inr hn)) G7
      have hlen : (g :: fs).length < h1.made + 1 := by
        rw [f1.2.2.2.2.2.1]
        have l1 := way_length (g :: fs)
        have : (wayAddrs (g :: fs)).length ≤ h.made := by
          refine length_le_of_nodup hwn fun n hn => hm n ?_
          rw [wayAddrs]; simp [hn]
        omega
      obtain ⟨bb', r1, r2, r3⟩ := refit_way (g :: fs) f.sib (h1.made + 1) h1 HU1 Ht hsw hlen
      have hrep : replaceChild h g.n f.n f.sib.addr = some { h1 with bb := bb' } := by
        have em : h1.made = h.made := f1.2.2.2.2.2.1
        rw [topOf, show h1.made + 1 = h.made + 1 by rw [em]] at r1
        unfold replaceChild
        by_cases hb : g.viaB = true
        · rw [if_pos hb] at G4 G5
          rw [if_pos hb] at hh1
          rw [if_neg (by rw [G4, Option.some.injEq]; exact hgs), G5]
          simp only
          rw [← hh1, r1]
        · rw [if_neg hb] at G4 G5
          rw [if_neg hb] at hh1
          rw [if_pos G4, ← hh1, r1]
      refine ⟨{ h1 with bb := bb' }, ?_, ?_, ?_, f1.1, f1.2.2.1, f1.2.2.2.1, f1.2.2.2.2.1, f1.2.2.2.2.2.1, ?_, by simp⟩
      · simp only [removeSub, Option.some.injEq, hr, if_false, hp, topOf, hrf, H3, ho, hrep, Option.map_some, removed]
        rw [plug_addr_eq fs g f.sib (f.fill (.leaf c l))]
        rfl
      · intro t ht
        simp only [removed, Option.mem_def, Option.some.injEq] at ht
        subst ht
        exact r2
      · refine ⟨f1.2.2.2.2.2.2, ?_⟩
        show Chain h1.parent (h1.parent f.n) P
        rw [f4]
        refine chain_congr P _ (fun n hn => f2 n (fun e => hfP (e ▸ hn)) (fun e => hsP (e ▸ hn))) hC
      · show bb' c = h.bb c
        rw [r3 c (fun hc => hcw (by rw [wayAddrs]; simp [hc])), f1.2.1]

/-! ### The same on trees without addresses -/

theorem fill_has {f : Frame K} {t : AT K} {i : Nat} (h : t.erase.has i = true) : (f.fill t).erase.has i = true := by
  unfold Frame.fill; split <;> simp [AT.erase, BBTree.Tree.has, h]



theorem at_has_iff (t : AT K) (i : Nat) : t.erase.has i = true ↔ ∃ e ∈ t.leafs, e.2.id = i := by
  rw [BBTree.has_iff, BBTree.mem_ids, ← at_leafs]
  simp only [List.mem_map]
  constructor
  · rintro ⟨l, ⟨e, he, rfl⟩, hi⟩; exact ⟨e, he, hi⟩
  · rintro ⟨e, he, hi⟩; exact ⟨e.2, ⟨e, he, rfl⟩, hi⟩

theorem remove_way {i : Nat} : ∀ (fs : List (Frame K)) (t t' : AT K), t.erase.has i = true → t.erase.remove i = some t'.erase →
    (∀ e ∈ wayLeafs fs, e.2.id ≠ i) → (plug fs t).erase.remove i = some (plugFit fs t').erase
  | [], t, t', _, hr, _ => hr
  | f :: fs, t, t', hh, hr, hi => by
    rw [plug, plugFit]
    refine remove_way fs _ _ (fill_has hh) ?_ fun e he => hi e (by simp [wayLeafs, he])
    have hs : ¬ f.sib.erase.has i = true := by
      rw [at_has_iff]
      rintro ⟨e, he, hei⟩
      exact hi e (by simp [wayLeafs, he]) hei
    unfold Frame.fill Frame.fit
    split
    · simp only [AT.erase, BBTree.Tree.remove]
      rw [if_neg hs, if_pos hh, hr]
    · simp only [AT.erase, BBTree.Tree.remove]
      rw [if_pos hh, hr]

theorem remove_leaf {l : Leaf K} {n : Nat} (fs : List (Frame K)) (hi : ∀ e ∈ wayLeafs fs, e.2.id ≠ l.id) :
    (plug fs (.leaf n l)).erase.remove l.id = (removed fs).map AT.erase := by
  cases fs with
  | nil => simp [plug, AT.erase, BBTree.Tree.remove, removed]
  | cons f fs =>
    rw [plug]
    simp only [removed, Option.map_some]
    refine remove_way fs _ _ (fill_has (by simp [AT.erase, BBTree.Tree.has])) ?_ fun e he => hi e (by simp [wayLeafs, he])
    have hs : ¬ f.sib.erase.has l.id = true := by
      rw [at_has_iff]
      rintro ⟨e, he, hei⟩
      exact hi e (by simp [wayLeafs, he]) hei
    unfold Frame.fill
    split
    · simp only [AT.erase, BBTree.Tree.remove, BBTree.Tree.has]
      rw [if_neg hs]
      simp
    · simp only [AT.erase, BBTree.Tree.remove, BBTree.Tree.has]
      simp

theorem siblings_way {i : Nat} : ∀ (fs : List (Frame K)) (t : AT K), t.erase.has i = true → (∀ e ∈ wayLeafs fs, e.2.id ≠ i) →
    (plug fs t).erase.siblings i = t.erase.siblings i ++ fs.map fun f => (!f.viaB, f.sib.erase)
  | [], t, _, _ => by simp [plug]
  | f :: fs, t, hh, hi => by
    rw [plug, siblings_way fs _ (fill_has hh) fun e he => hi e (by simp [wayLeafs, he])]
    have hs : ¬ f.sib.erase.has i = true := by
      rw [at_has_iff]
      rintro ⟨e, he, hei⟩
      exact hi e (by simp [wayLeafs, he]) hei
    unfold Frame.fill
    split <;> rename_i hb
    · simp only [AT.erase, BBTree.Tree.siblings]
      rw [if_neg hs]
      simp [hb]
    · simp only [AT.erase, BBTree.Tree.siblings]
      rw [if_pos hh]
      simp [hb]

/-! ### Whole calls -/

theorem insertSub_tree (l : Leaf K) (n : Nat) (g : TH K) (T : Option (AT K)) (P : List Nat) (H : ∀ t ∈ T, Holds g none t) (hC : Chain g.parent g.pooled P)
    (hn : (n :: addrsO T ++ P).Nodup) (hm : ∀ m ∈ n :: addrsO T ++ P, m < g.made) (ho : g.obj n = some l.id) (hb : g.bb n = l.bb) (hp : T = none → g.parent n = none) :
    ∃ h' t' P', insertSub g (T.map AT.addr) n = some (h', t'.addr) ∧ t'.erase = insertRoot l (T.map AT.erase) ∧ t'.leafs.Perm ((n, l) :: leafsO T) ∧
      Holds h' none t' ∧ Chain h'.parent h'.pooled P' ∧ (t'.addrs ++ P').Nodup ∧ (∀ m ∈ t'.addrs ++ P', m < h'.made) ∧ h'.leaves = g.leaves ∧
      ∀ m < g.made, h'.stamp m = g.stamp m := by
  cases T with
  | none =>
    refine ⟨g, .leaf n l, P, rfl, rfl, by simp [AT.leafs, leafsO], ⟨ho, hb, hp rfl⟩, hC, by simpa [addrsO, AT.addrs] using hn, fun m h => hm m ?_, rfl, fun _ _ => rfl⟩
    simpa [addrsO, AT.addrs] using h
  | some t =>
    have H := H t rfl
    simp only [addrsO, Option.map_some, Option.getD_some] at hn hm
    have hn1 := List.nodup_cons.1 hn
    have F : Free g P := ⟨hC, hn1.2.of_append_right, fun m h => hm m (by simp [h])⟩
    have hd : ∀ m ∈ t.addrs, m ∉ P ∧ m < g.made ∧ m ≠ n := fun m h =>
      ⟨fun h2 => List.disjoint_of_nodup_append hn1.2 h h2, hm m (by simp [h]), fun e => hn1.1 (by simp [← e, h])⟩
    have hlen : t.addrs.length ≤ g.made + 1 := by
      have := length_le_of_nodup hn1.2.of_append_left fun m h => (hd m h).2.1
      omega
    obtain ⟨h', t', P', r1, r2, r3, ⟨p', r4, r5⟩, G⟩ := insertAt_grown l n t (g.made + 1) g none P H F hn1.2.of_append_left hd
      (fun h => hn1.1 (by simp [h])) (hm n (by simp)) ho hb hlen
    have : p' = none := by tauto
    subst this
    refine ⟨h', t', P', r1, by rw [r2]; rfl, r3, r4, G.free.chain, G.nodup.append G.free.nodup fun m a b => G.apart m a b, fun m h => ?_, G.kept.leaves, G.kept.stamp⟩
    rcases List.mem_append.1 h with h | h
    · exact G.bound m h
    · exact G.free.made m h

/-- The end of `Insert` and `LeafUpdate`. -/
theorem linked_sound (l : Leaf K) (n : Nat) (g : TH K) (T : Option (AT K)) (P : List Nat) (H : ∀ t ∈ T, Holds g none t) (hC : Chain g.parent g.pooled P)
    (hn : (n :: addrsO T ++ P).Nodup) (hm : ∀ m ∈ n :: addrsO T ++ P, m < g.made) (ho : g.obj n = some l.id) (hb : g.bb n = l.bb) (hp : T = none → g.parent n = none)
    (hs : ∀ m k, (m, k) ∈ leafsO T → g.stamp m = k.stamp) (hl : ∀ i m, g.leaves i = some m ↔ ∃ k, (m, k) ∈ (n, l) :: leafsO T ∧ k.id = i)
    (hi : ((l.id :: (leafsO T).map fun e => e.2.id)).Nodup) :
    ∃ r t' P', insertSub g (T.map AT.addr) n = some r ∧ t'.erase = insertRoot l (T.map AT.erase) ∧
      Sound { r.1 with root := some r.2, stamp := put r.1.stamp n l.stamp } (some t') P' := by
  obtain ⟨h', t', P', r1, r2, r3, r4, r5, r6, r7, r8, r9⟩ := insertSub_tree l n g T P H hC hn hm ho hb hp
  refine ⟨(h', t'.addr), t', P', r1, r2, rfl, ?_, r5, r6, r7, ?_, ?_, ?_⟩
  · intro t ht
    simp only [Option.mem_def, Option.some.injEq] at ht
    subst ht
    exact holds_agree (h := h') r6.of_append_left (fun m _ => ⟨rfl, rfl, rfl, rfl, rfl⟩) r4
  · intro m k hk
    rcases List.mem_cons.1 (r3.mem_iff.1 hk) with e | hk
    · simp only [Prod.mk.injEq] at e
      obtain ⟨rfl, rfl⟩ := e
      exact put_self _ _ _
    · have hma : m ∈ addrsO T := by
        cases T with
        | none => simp [leafsO] at hk
        | some t => exact at_leafs_addr t (m, k) hk
      have hmn : m ≠ n := fun e => (List.nodup_cons.1 hn).1 (by simp [← e, hma])
      show put h'.stamp n l.stamp m = k.stamp
      rw [put_ne _ _ hmn, r9 m (hm m (by simp [hma])), hs m k hk]
  · intro i m
    show h'.leaves i = some m ↔ _
    rw [r8, hl]
    constructor
    · rintro ⟨k, hk, e⟩; exact ⟨k, r3.mem_iff.2 hk, e⟩
    · rintro ⟨k, hk, e⟩; exact ⟨k, r3.mem_iff.1 hk, e⟩
  · exact (List.Perm.nodup_iff (r3.map _)).2 hi

theorem removed_addrs (fs : List (Frame K)) : (freed fs ++ addrsO (removed fs)).Perm (wayAddrs fs) := by
  cases fs with
  | nil => simp [freed, removed, addrsO, wayAddrs]
  | cons f fs => exact List.Perm.cons _ (plugFit_addrs fs f.sib)

theorem removed_leafs (fs : List (Frame K)) : (leafsO (removed fs)).Perm (wayLeafs fs) := by
  cases fs with
  | nil => simp [removed, leafsO, wayLeafs]
  | cons f fs => exact plugFit_leafs fs f.sib

/-- A leaf known to the table, seen from the tree. -/
theorem sound_leaf {h : TH K} {T : Option (AT K)} {P : List Nat} (S : Sound h T P) {i n : Nat} (hl : h.leaves i = some n) :
    ∃ l fs, l.id = i ∧ T = some (plug fs (.leaf n l)) ∧ HoldsUp h fs n ∧ Holds h (topOf fs) (.leaf n l) ∧ (n :: wayAddrs fs ++ P).Nodup ∧
      (∀ m ∈ n :: wayAddrs fs ++ P, m < h.made) ∧ (leafsO T).Perm ((n, l) :: wayLeafs fs) ∧ ∀ e ∈ wayLeafs fs, e.2.id ≠ i := by
  obtain ⟨l, hm, hi⟩ := (S.leaves i n).1 hl
  cases T with
  | none => simp [leafsO] at hm
  | some t =>
    obtain ⟨fs, rfl⟩ := way_to_leaf t n l hm
    have H := S.holds _ rfl
    rw [holds_plug] at H
    have pa : (plug fs (.leaf n l)).addrs.Perm (n :: wayAddrs fs) := plug_addrs fs _
    have pl : (leafsO (some (plug fs (.leaf n l)))).Perm ((n, l) :: wayLeafs fs) := plug_leafs fs _
    refine ⟨l, fs, hi, rfl, H.1, H.2, (List.Perm.nodup_iff (pa.append_right P)).1 S.nodup, fun m h => S.made m ((pa.append_right P).mem_iff.2 h), pl, fun e he hei => ?_⟩
    have := (List.Perm.nodup_iff (pl.map fun e => e.2.id)).1 S.ids
    simp only [List.map_cons, List.nodup_cons, List.mem_map, not_exists, not_and] at this
    exact this.1 e he (hei.trans hi.symm)

theorem leavesOf_any (T : Option (AT K)) (i : Nat) : (leavesOf (T.map AT.erase)).any (fun l => l.id == i) = true ↔ ∃ e ∈ leafsO T, e.2.id = i := by
  have : leavesOf (T.map AT.erase) = (leafsO T).map Prod.snd := by
    cases T with
    | none => simp [leavesOf, leafsO]
    | some t => simp [leavesOf, leafsO, at_leafs]
  rw [this]
  simp

theorem step_sound {h : TH K} {T : Option (AT K)} {P : List Nat} (S : Sound h T P) (op : Op K) (t : Option (BBTree.Tree K))
    (hf : fstep (T.map AT.erase) op = some t) : ∃ h', step h op = some h' ∧ InMemory h' t := by
  cases op with
  | insert i box stamp =>
    simp only [fstep] at hf
    split at hf
    · cases hf
    rename_i hany
    rw [leavesOf_any] at hany
    rw [Option.some.injEq] at hf
    have hnone : h.leaves i = none := by
      rw [Option.eq_none_iff_forall_ne_some]
      intro n hn
      obtain ⟨l, hl, hi⟩ := (S.leaves i n).1 hn
      exact hany ⟨_, hl, hi⟩
    obtain ⟨P', F', n1, n2, n3, n4, n5⟩ := fromPool_free (h := h) (P := P) ⟨S.pool, S.nodup.of_append_right, fun n hn => S.made n (by simp [hn])⟩
    obtain ⟨g, hg⟩ : ∃ g, fromPool h = g := ⟨_, rfl⟩
    rw [hg] at F' n1 n2 n3 n5
    obtain ⟨h1, n⟩ := g
    simp only at F' n1 n2 n3 n5
    have hTm : ∀ m ∈ addrsO T, m < h.made ∧ m ∉ P ∧ m ≠ n := fun m hm => by
      have a := S.made m (by simp [hm])
      have b : m ∉ P := fun h => List.disjoint_of_nodup_append S.nodup hm h
      exact ⟨a, b, fun e => by subst e; rcases n3 with h | h; exact b h; omega⟩
    have hTP : ∀ m ∈ addrsO T, m ∉ P' := fun m hm hc => by
      obtain ⟨a, b, c⟩ := hTm m hm
      rcases n4 m hc with h | h; exact b h; omega
    obtain ⟨r, t', P'', q1, q2, q3⟩ := linked_sound ⟨i, box, stamp⟩ n
      { h1 with obj := put h1.obj n (some i), bb := put h1.bb n box, parent := put h1.parent n none, stamp := put h1.stamp n 0, leaves := put h1.leaves i (some n) } T P'
      (fun t ht => by
        have hTa : addrsO T = t.addrs := by rw [Option.mem_def] at ht; rw [ht]; rfl
        refine holds_agree (hTa ▸ S.nodup.of_append_left) (fun m hm => ?_) (S.holds t ht)
        rw [← hTa] at hm
        obtain ⟨a, b, c⟩ := hTm m hm
        refine agree_trans (n5.keep m a b) ?_
        simp [AgreeAt, put, c])
      (chain_congr P' _ (fun m hm => put_ne _ _ fun e => n1 (e ▸ hm)) F'.chain)
      (by
        rw [List.cons_append, List.nodup_cons]
        refine ⟨?_, S.nodup.of_append_left.append F'.nodup fun m a b => hTP m a b⟩
        simp only [List.mem_append, not_or]
        exact ⟨fun hc => (hTm n hc).2.2 rfl, n1⟩)
      (fun m hm => by
        show m < h1.made
        have := n5.made
        rw [List.cons_append, List.mem_cons, List.mem_append] at hm
        rcases hm with rfl | hm | hm
        · exact n2
        · exact lt_of_lt_of_le (hTm m hm).1 this
        · exact F'.made m hm)
      (put_self _ _ _) (put_self _ _ _) (fun _ => put_self _ _ _)
      (fun m k hk => by
        have hma : m ∈ addrsO T := by
          cases T with
          | none => simp [leafsO] at hk
          | some t => exact at_leafs_addr t (m, k) hk
        obtain ⟨a, b, c⟩ := hTm m hma
        show put h1.stamp n 0 m = k.stamp
        rw [put_ne _ _ c, n5.stamp m a, S.stamps m k hk])
      (fun j m => by
        show put h1.leaves i (some n) j = some m ↔ _
        rw [n5.leaves]
        by_cases hj : j = i
        · subst hj
          rw [put_self, Option.some.injEq]
          constructor
          · rintro rfl; exact ⟨⟨j, box, stamp⟩, by simp, rfl⟩
          · rintro ⟨k, hk, hki⟩
            rcases List.mem_cons.1 hk with e | hk
            · simp only [Prod.mk.injEq] at e; exact e.1.symm
            · exact absurd ⟨_, hk, hki⟩ hany
        · rw [put_ne _ _ hj, S.leaves]
          constructor
          · rintro ⟨k, hk, e⟩; exact ⟨k, by simp [hk], e⟩
          · rintro ⟨k, hk, e⟩
            rcases List.mem_cons.1 hk with e' | hk
            · simp only [Prod.mk.injEq] at e'
              rw [e'.2] at e
              exact absurd e.symm hj
            · exact ⟨k, hk, e⟩)
      (by
        rw [List.nodup_cons]
        refine ⟨fun hc => ?_, S.ids⟩
        simp only [List.mem_map] at hc
        exact hany hc)
    refine ⟨_, ?_, some t', P'', q3, ?_⟩
    · simp only [step, TreeHeap.insert, hnone, newLeaf, hg]
      have e : h1.root = T.map AT.addr := n5.root.trans S.root
      rw [← e] at q1
      rw [q1]
    · rw [← hf, Option.map_some, q2]
  | remove i =>
    have hT : ∃ t0, T = some t0 ∧ t0.erase.has i = true ∧ t = t0.erase.remove i := by
      cases T with
      | none => simp [fstep] at hf
      | some t0 =>
        simp only [fstep, Option.map_some] at hf
        split at hf
        · rename_i hh; exact ⟨t0, rfl, hh, by simpa using hf.symm⟩
        · cases hf
    obtain ⟨t0, rfl, hh, rfl⟩ := hT
    obtain ⟨e, he, hei⟩ := (at_has_iff t0 i).1 hh
    have hl : h.leaves i = some e.1 := (S.leaves i e.1).2 ⟨e.2, he, hei⟩
    obtain ⟨n, l'⟩ := e
    simp only at hl
    obtain ⟨l, fs, hi, hT, HU, HL, hn, hm, pl, hids⟩ := sound_leaf S hl
    subst hi
    rw [Option.some.injEq] at hT
    obtain ⟨h', r1, r2, r3, r4, r5, r6, r7, r8, r9, r10⟩ := removeSub_way fs l n { h with leaves := put h.leaves l.id none } P
      (holdsUp_agree (h := h) fs n (List.nodup_cons.1 hn).2.of_append_left (fun _ _ => ⟨rfl, rfl, rfl, rfl, rfl⟩) HU) HL.2.2 hn hm S.pool
    have hnn := List.nodup_cons.1 hn
    have pa := removed_addrs fs
    have hnr : ∀ m ∈ addrsO (removed fs), m ≠ n := fun m hm e => hnn.1 (by
      have := pa.mem_iff.1 (List.mem_append_right _ hm)
      simp [← e, this])
    have hnf : n ∉ freed fs ++ P := fun hc => hnn.1 (by
      rcases List.mem_append.1 hc with hc | hc
      · have := pa.mem_iff.1 (List.mem_append_left _ hc)
        simp [this]
      · simp [hc])
    have perm : (addrsO (removed fs) ++ n :: (freed fs ++ P)).Perm (n :: wayAddrs fs ++ P) := by
      refine List.perm_middle.trans ?_
      rw [List.cons_append]
      refine List.Perm.cons _ ?_
      rw [← List.append_assoc]
      exact (List.perm_append_comm.trans pa).append_right P
    refine ⟨recycle { h' with root := (removed fs).map AT.addr } n, ?_, removed fs, n :: (freed fs ++ P), ⟨rfl, ?_, ?_, ?_, ?_, ?_, ?_, ?_⟩, ?_⟩
    · simp only [step, TreeHeap.remove, hl]
      have e : h.root = some (plug fs (.leaf n l)).addr := by rw [S.root, hT]; rfl
      rw [← e] at r1
      rw [r1]
    · intro t ht
      have hTa : addrsO (removed fs) = t.addrs := by rw [Option.mem_def] at ht; rw [ht]; rfl
      have hnd : t.addrs.Nodup := hTa ▸ ((List.Perm.nodup_iff perm).2 hn).of_append_left
      refine holds_agree (h := h') hnd (fun m hm => ?_) (r2 t ht)
      have := hnr m (hTa ▸ hm)
      simp [AgreeAt, recycle, put, this]
    · refine ⟨rfl, ?_⟩
      show Chain (put h'.parent n h'.pooled) (put h'.parent n h'.pooled n) (freed fs ++ P)
      rw [put_self]
      exact chain_congr _ _ (fun m hm => put_ne _ _ fun e => hnf (e ▸ hm)) r3
    · exact (List.Perm.nodup_iff perm).2 hn
    · intro m h1
      show m < h'.made
      rw [r8]
      exact hm m (perm.mem_iff.1 h1)
    · intro m k hk
      show h'.stamp m = k.stamp
      rw [r5]
      exact S.stamps m k (pl.mem_iff.2 (List.mem_cons_of_mem _ ((removed_leafs fs).mem_iff.1 hk)))
    · intro j m
      show h'.leaves j = some m ↔ _
      rw [r6]
      show put h.leaves l.id none j = some m ↔ _
      by_cases hj : j = l.id
      · subst hj
        rw [put_self]
        constructor
        · intro h; cases h
        · rintro ⟨k, hk, e⟩
          exact absurd e (hids _ ((removed_leafs fs).mem_iff.1 hk))
      · rw [put_ne _ _ hj, S.leaves]
        constructor
        · rintro ⟨k, hk, e⟩
          rcases List.mem_cons.1 (pl.mem_iff.1 hk) with e' | hk
          · simp only [Prod.mk.injEq] at e'
            rw [e'.2] at e
            exact absurd e.symm hj
          · exact ⟨k, (removed_leafs fs).mem_iff.2 hk, e⟩
        · rintro ⟨k, hk, e⟩
          exact ⟨k, pl.mem_iff.2 (List.mem_cons_of_mem _ ((removed_leafs fs).mem_iff.1 hk)), e⟩
    · have h1 := (List.Perm.nodup_iff (pl.map fun e => e.2.id)).1 S.ids
      rw [List.map_cons, List.nodup_cons] at h1
      exact (List.Perm.nodup_iff ((removed_leafs fs).map _)).2 h1.2
    · rw [hT]
      exact remove_leaf fs hids
  | update i cur box stamp =>
    cases hl : h.leaves i with
    | none =>
      have hno : ∀ e ∈ leafsO T, e.2.id ≠ i := fun e he hei => by
        have := (S.leaves i e.1).2 ⟨e.2, he, hei⟩
        rw [hl] at this; cases this
      refine ⟨h, by simp only [step, TreeHeap.update, hl], T, P, S, ?_⟩
      cases T with
      | none => simpa [fstep] using hf.symm
      | some t0 =>
        have : t0.erase.find? i = none := by
          rw [BBTree.find?_eq, List.find?_eq_none, ← at_leafs]
          intro x hx
          simp only [List.mem_map] at hx
          obtain ⟨e, he, rfl⟩ := hx
          simpa using hno e he
        simp only [fstep, Option.map_some, this] at hf
        simpa using hf.symm
    | some n =>
      obtain ⟨l, fs, hi, hT, HU, HL, hn, hm, pl, hids⟩ := sound_leaf S hl
      subst hi
      have hfind : (plug fs (.leaf n l)).erase.find? l.id = some l := by
        rw [BBTree.find?_eq, ← at_leafs]
        have hmem : (n, l) ∈ (plug fs (.leaf n l)).leafs := (plug_leafs fs _).mem_iff.2 (by simp [AT.leafs])
        cases hx : ((plug fs (.leaf n l)).leafs.map Prod.snd).find? (fun k => k.id == l.id) with
        | none =>
          rw [List.find?_eq_none] at hx
          exact absurd (hx l (List.mem_map.2 ⟨_, hmem, rfl⟩)) (by simp)
        | some k =>
          have h1 := List.find?_some hx
          have h2 := List.mem_of_find?_eq_some hx
          simp only [List.mem_map] at h2
          obtain ⟨e, he, rfl⟩ := h2
          rw [hT] at pl
          rcases List.mem_cons.1 (pl.mem_iff.1 he) with e' | he'
          · rw [e']
          · exact absurd (by simpa using h1) (hids e he')
      subst hT
      simp only [fstep, Option.map_some, hfind] at hf
      by_cases hc : l.bb.contains cur = true
      · rw [if_pos hc, Option.some.injEq] at hf
        refine ⟨h, ?_, _, P, S, hf.symm⟩
        simp only [step, TreeHeap.update, hl, HL.2.1, hc, if_true]
      · rw [if_neg hc, Option.some.injEq] at hf
        have hnn := List.nodup_cons.1 hn
        have hnw : n ∉ wayAddrs fs := fun h => hnn.1 (by simp [h])
        obtain ⟨h', r1, r2, r3, r4, r5, r6, r7, r8, r9, r10⟩ := removeSub_way fs l n { h with bb := put h.bb n box } P
          (holdsUp_agree (h := h) fs n hnn.2.of_append_left (fun m hm => by
            have : m ≠ n := fun e => hnw (e ▸ hm)
            simp [AgreeAt, put, this]) HU) HL.2.2 hn hm S.pool
        have pa := removed_addrs fs
        have perm : (n :: addrsO (removed fs) ++ (freed fs ++ P)).Perm (n :: wayAddrs fs ++ P) := by
          rw [List.cons_append, List.cons_append]
          refine List.Perm.cons _ ?_
          rw [← List.append_assoc]
          exact (List.perm_append_comm.trans pa).append_right P
        obtain ⟨r, t', P'', q1, q2, q3⟩ := linked_sound ⟨l.id, box, stamp⟩ n h' (removed fs) (freed fs ++ P) r2 r3
          ((List.Perm.nodup_iff perm).2 hn) (fun m h1 => by rw [r8]; exact hm m (perm.mem_iff.1 h1))
          (by rw [r4]; exact HL.1) (by rw [r9]; exact put_self _ _ _)
          (fun hr => r10 (by cases fs with | nil => rfl | cons f fs => simp [removed] at hr))
          (fun m k hk => by
            rw [r5]
            exact S.stamps m k (pl.mem_iff.2 (List.mem_cons_of_mem _ ((removed_leafs fs).mem_iff.1 hk))))
          (fun j m => by
            rw [r6, S.leaves]
            constructor
            · rintro ⟨k, hk, e⟩
              rcases List.mem_cons.1 (pl.mem_iff.1 hk) with e' | hk
              · simp only [Prod.mk.injEq] at e'
                exact ⟨⟨l.id, box, stamp⟩, by simp [e'.1], by rw [← e, e'.2]⟩
              · exact ⟨k, List.mem_cons_of_mem _ ((removed_leafs fs).mem_iff.2 hk), e⟩
            · rintro ⟨k, hk, e⟩
              rcases List.mem_cons.1 hk with e' | hk
              · simp only [Prod.mk.injEq] at e'
                exact ⟨l, pl.mem_iff.2 (by simp [e'.1]), by rw [← e, e'.2]⟩
              · exact ⟨k, pl.mem_iff.2 (List.mem_cons_of_mem _ ((removed_leafs fs).mem_iff.1 hk)), e⟩)
          (by
            have h1 := (List.Perm.nodup_iff (pl.map fun e => e.2.id)).1 S.ids
            rw [List.map_cons, List.nodup_cons] at h1
            rw [List.nodup_cons]
            refine ⟨fun hc => h1.1 (((removed_leafs fs).map _).mem_iff.1 hc), (List.Perm.nodup_iff ((removed_leafs fs).map _)).2 h1.2⟩)
        refine ⟨_, ?_, some t', P'', q3, ?_⟩
        · have e : h.root = some (plug fs (.leaf n l)).addr := S.root
          have hc' : (h.bb n).contains cur = false := by rw [HL.2.1]; simpa using hc
          simp only [step, TreeHeap.update, hl, hc']
          rw [← e] at r1
          rw [if_neg (by simp), r1]
          simp only
          rw [q1]
        · rw [← hf, Option.map_some, q2, remove_leaf fs hids]

theorem new_sound : Sound (new : TH K) none [] :=
  ⟨rfl, by simp, rfl, by simp [addrsO], by simp [addrsO], by simp [leafsO], by simp [leafsO, new], by simp [leafsO]⟩

theorem run_sound : ∀ (ops : List (Op K)) (h : TH K) (t t' : Option (BBTree.Tree K)), InMemory h t → frun t ops = some t' →
    ∃ h', run h ops = some h' ∧ InMemory h' t'
  | [], h, t, t', H, hf => by
    simp only [frun, Option.some.injEq] at hf
    exact ⟨h, rfl, hf ▸ H⟩
  | op :: ops, h, t, t', ⟨T, P, S, e⟩, hf => by
    rw [frun] at hf
    cases hs : fstep t op with
    | none => rw [hs] at hf; cases hf
    | some t1 =>
      rw [hs] at hf
      rw [e] at hs
      obtain ⟨h1, r1, r2⟩ := step_sound S op t1 hs
      obtain ⟨h', q1, q2⟩ := run_sound ops h1 t1 t' r2 hf
      exact ⟨h', by rw [run, r1]; exact q1, q2⟩

/-! ### Walks -/

theorem climb_way {h : TH K} : ∀ (fs : List (Frame K)) (c k : Nat), HoldsUp h fs c → h.parent c = topOf fs → c ∉ wayAddrs fs → (wayAddrs fs).Nodup → fs.length < k →
    climb h k c = some (fs.map fun f => (!f.viaB, f.sib.addr))
  | [], c, 0, _, _, _, _, hk => by simp at hk
  | [], c, k + 1, _, hp, _, _, _ => by simp [climb, hp, topOf]
  | f :: fs, c, 0, _, _, _, _, hk => by simp at hk
  | f :: fs, c, k + 1, HU, hp, hc, hn, hk => by
    obtain ⟨H1, H2, H3, H4, H5, H6, H7⟩ := HU
    have hsc : f.sib.addr ≠ c := fun e => hc (by rw [wayAddrs]; simp [← e, at_addr_mem])
    simp only [wayAddrs, List.nodup_cons, List.mem_append, not_or] at hn
    have ih := climb_way fs f.n k H7 H3 hn.1.2 hn.2.of_append_right (by simp at hk; omega)
    simp only [climb, hp, topOf]
    by_cases hb : f.viaB = true
    · rw [if_pos hb] at H4 H5
      rw [if_neg (by rw [H4, Option.some.injEq]; exact hsc), H4]
      simp [ih, hb]
    · rw [if_neg hb] at H4 H5
      rw [if_pos H4, H5]
      simp [ih, hb]

theorem query_tree {h : TH K} (q : BB K) : ∀ (t : AT K) (p : Option Nat) (k : Nat), Holds h p t → t.addrs.length ≤ k → TreeHeap.query h q k t.addr = some (t.erase.query q)
  | t, p, 0, _, hk => by
    have : 0 < t.addrs.length := List.length_pos_of_mem (at_addr_mem t)
    omega
  | .leaf n l, p, k + 1, H, hk => by
    obtain ⟨H1, H2, H3⟩ := H
    simp only [TreeHeap.query, AT.addr, H1, H2, AT.erase, BBTree.Tree.query]
    split <;> rfl
  | .node n bb x y, p, k + 1, H, hk => by
    obtain ⟨H1, H2, H3, H4, H5, H6, H7⟩ := H
    simp only [AT.addrs, List.length_cons, List.length_append] at hk
    have ex := query_tree q x _ k H6 (by omega)
    have ey := query_tree q y _ k H7 (by omega)
    show TreeHeap.query h q (k + 1) n = _
    simp only [TreeHeap.query, H1, H2, H4, H5, ex, ey, AT.erase, BBTree.Tree.query]
    split <;> rfl

namespace Spec
/-- The nodes one gets to from the root by the pointers `a` and `b` of inner nodes. -/
inductive FromRoot (h : TH K) : Nat → Prop
  | root {n : Nat} : h.root = some n → FromRoot h n
  | a {n x : Nat} : FromRoot h n → h.obj n = none → h.a n = some x → FromRoot h x
  | b {n y : Nat} : FromRoot h n → h.obj n = none → h.b n = some y → FromRoot h y

/-- The nodes on the free list. -/
inductive OnFreeList (h : TH K) : Nat → Prop
  | head {n : Nat} : h.pooled = some n → OnFreeList h n
  | next {n m : Nat} : OnFreeList h n → h.parent n = some m → OnFreeList h m
end Spec

/-- A node of the tree with its subtree. -/
theorem reached_sub {h : TH K} {T : Option (AT K)} {P : List Nat} (S : Sound h T P) {n : Nat} (hr : FromRoot h n) :
    ∃ p s, Holds h p s ∧ s.addr = n ∧ (∀ m ∈ s.addrs, m ∈ addrsO T) ∧ s.addrs.Nodup ∧ (∀ e ∈ s.leafs, e ∈ leafsO T) := by
  induction hr with
  | root hr =>
    rw [S.root] at hr
    cases T with
    | none => simp at hr
    | some t =>
      simp only [Option.map_some, Option.some.injEq] at hr
      exact ⟨none, t, S.holds t rfl, hr, fun m hm => hm, S.nodup.of_append_left, fun e he => he⟩
  | a _ ho ha ih =>
    obtain ⟨p, s, H, e, hs, hn, hl⟩ := ih
    cases s with
    | leaf n l => simp only [AT.addr] at e; subst e; rw [H.1] at ho; cases ho
    | node n bb x y =>
      simp only [AT.addr] at e
      subst e
      obtain ⟨H1, H2, H3, H4, H5, H6, H7⟩ := H
      rw [H4, Option.some.injEq] at ha
      exact ⟨_, x, H6, ha, fun m hm => hs m (by simp [AT.addrs, hm]), (at_nodup_node hn).2.2.1, fun e he => hl e (by simp [AT.leafs, he])⟩
  | b _ ho ha ih =>
    obtain ⟨p, s, H, e, hs, hn, hl⟩ := ih
    cases s with
    | leaf n l => simp only [AT.addr] at e; subst e; rw [H.1] at ho; cases ho
    | node n bb x y =>
      simp only [AT.addr] at e
      subst e
      obtain ⟨H1, H2, H3, H4, H5, H6, H7⟩ := H
      rw [H5, Option.some.injEq] at ha
      exact ⟨_, y, H7, ha, fun m hm => hs m (by simp [AT.addrs, hm]), (at_nodup_node hn).2.2.2.1, fun e he => hl e (by simp [AT.leafs, he])⟩

theorem free_mem {h : TH K} : ∀ (P : List Nat) (p : Option Nat), Chain h.parent p P → ∀ n, p = some n → n ∈ P ∧ ∀ m, h.parent n = some m → ∀ Q, P = n :: Q → m ∈ Q
  | [], p, hc, n, hp => by rw [Chain] at hc; rw [hc] at hp; cases hp
  | a :: P, p, hc, n, hp => by
    obtain ⟨e, hc⟩ := hc
    rw [e, Option.some.injEq] at hp
    subst hp
    refine ⟨by simp, fun m hm Q hQ => ?_⟩
    rw [List.cons.injEq] at hQ
    rw [← hQ.2]
    exact (free_mem P _ hc m hm).1

theorem chain_succ {nx : Nat → Option Nat} : ∀ (P : List Nat) (p : Option Nat), Chain nx p P → ∀ n ∈ P, ∀ m, nx n = some m → m ∈ P
  | [], _, _, n, hn, _, _ => by simp at hn
  | a :: P, p, ⟨_, hc⟩, n, hn, m, hm => by
    rcases List.mem_cons.1 hn with rfl | hn
    · rw [hm] at hc
      cases P with
      | nil => simp [Chain] at hc
      | cons b P =>
        obtain ⟨e, _⟩ := hc
        rw [Option.some.injEq] at e
        simp [e]
    · exact List.mem_cons_of_mem _ (chain_succ P _ hc n hn m hm)

theorem onFreeList_mem {h : TH K} {P : List Nat} (hc : Chain h.parent h.pooled P) {n : Nat} (hf : OnFreeList h n) : n ∈ P := by
  induction hf with
  | head hp => exact (free_mem P _ hc _ hp).1
  | next _ hm ih => exact chain_succ P _ hc _ ih _ hm

/-! ### The theorems -/

/-- C97: whatever history of insertions, removals and updates the tree of values goes through, the tree in memory goes through it
too, without using a nil pointer and without a walk that does not end, and holds the same tree afterwards. -/
theorem C97_memory_refines (ops : List (Op K)) (t : Option (BBTree.Tree K)) (hf : frun none ops = some t) :
    ∃ h, run (new : TH K) ops = some h ∧ InMemory h t :=
  run_sound ops new none t ⟨none, [], new_sound, rfl⟩ hf

/-- C97: after any such history a node of the tree is not on the free list; an inner one has two different children, which both point
back to it, and the union of their boxes as box when that is how the tree of values is; a leaf is the one the table has for its shape;
the root has nothing above it. -/
theorem C97_pointers (ops : List (Op K)) (t : Option (BBTree.Tree K)) (hf : frun none ops = some t) :
    ∃ h, run (new : TH K) ops = some h ∧ (∀ r, h.root = some r → h.parent r = none) ∧ ∀ n, FromRoot h n → ¬ OnFreeList h n ∧
      (h.obj n = none → ∃ x y, h.a n = some x ∧ h.b n = some y ∧ x ≠ y ∧ h.parent x = some n ∧ h.parent y = some n) ∧
      ∀ i, h.obj n = some i → h.leaves i = some n := by
  obtain ⟨h, h1, T, P, S, e⟩ := C97_memory_refines ops t hf
  refine ⟨h, h1, fun r hr => ?_, fun n hn => ?_⟩
  · rw [S.root] at hr
    cases T with
    | none => simp at hr
    | some t =>
      simp only [Option.map_some, Option.some.injEq] at hr
      rw [← hr]
      exact at_parent (S.holds t rfl)
  · obtain ⟨p, s, H, hs, hin, hnd, hlf⟩ := reached_sub S hn
    subst hs
    refine ⟨fun hfree => ?_, fun ho => ?_, fun i hi => ?_⟩
    · exact List.disjoint_of_nodup_append S.nodup (hin _ (at_addr_mem s)) (onFreeList_mem S.pool hfree)
    · cases s with
      | leaf n l => rw [AT.addr, H.1] at ho; cases ho
      | node n bb x y =>
        obtain ⟨H1, H2, H3, H4, H5, H6, H7⟩ := H
        exact ⟨x.addr, y.addr, H4, H5, fun e => (at_nodup_node hnd).2.2.2.2 _ (at_addr_mem x) (e ▸ at_addr_mem y), at_parent H6, at_parent H7⟩
    · cases s with
      | leaf n l =>
        rw [AT.addr, H.1, Option.some.injEq] at hi
        exact (S.leaves i n).2 ⟨l, hlf _ (by simp [AT.leafs]), hi⟩
      | node n bb x y => rw [AT.addr, H.1] at hi; cases hi

/-- C97: the walk up from a leaf along the parent pointers meets the sibling subtrees in the order of the model of the tree, each on its
side. -/
theorem C97_climb (h : TH K) (t : BBTree.Tree K) (H : InMemory h (some t)) (i n : Nat) (hl : h.leaves i = some n) :
    ∃ ws, climb h (h.made + 1) n = some ws ∧
      List.Forall₂ (fun w s => w.1 = s.1 ∧ ∃ T p, T.addr = w.2 ∧ T.erase = s.2 ∧ Holds h p T) ws (t.siblings i) := by
  obtain ⟨T, P, S, e⟩ := H
  obtain ⟨l, fs, hi, hT, HU, HL, hn, hm, pl, hids⟩ := sound_leaf S hl
  subst hT
  simp only [Option.map_some, Option.some.injEq] at e
  subst e
  subst hi
  have hnn := List.nodup_cons.1 hn
  have hw := hnn.2.of_append_left
  have hlen : fs.length < h.made + 1 := by
    have l1 := way_length fs
    have := length_le_of_nodup hw fun m h1 => hm m (by simp [h1])
    omega
  refine ⟨_, climb_way fs n _ HU HL.2.2 (fun h => hnn.1 (by simp [h])) hw hlen, ?_⟩
  rw [siblings_way fs _ (by simp [AT.erase, BBTree.Tree.has]) hids]
  simp only [AT.erase, BBTree.Tree.siblings, List.nil_append]
  clear hl S pl hn hm hnn hw hlen hids HL
  induction fs generalizing n with
  | nil => simp
  | cons f fs ih =>
    obtain ⟨H1, H2, H3, H4, H5, H6, H7⟩ := HU
    rw [List.map_cons, List.map_cons]
    exact List.Forall₂.cons ⟨rfl, f.sib, some f.n, rfl, rfl, H6⟩ (ih f.n H7)

/-- C97: the query over the nodes in memory calls back for the shapes of the query over the tree, in the same order. -/
theorem C97_query (h : TH K) (t : BBTree.Tree K) (H : InMemory h (some t)) (q : BB K) :
    ∃ r, h.root = some r ∧ TreeHeap.query h q (h.made + 1) r = some (t.query q) := by
  obtain ⟨T, P, S, e⟩ := H
  cases T with
  | none => simp at e
  | some T =>
    simp only [Option.map_some, Option.some.injEq] at e
    subst e
    refine ⟨T.addr, S.root, query_tree q T none _ (S.holds T rfl) ?_⟩
    have := length_le_of_nodup S.nodup.of_append_left fun m hm => S.made m (by simp [addrsO] at hm ⊢; simp [hm])
    simp only [addrsO, Option.map_some, Option.getD_some] at this
    omega

/-- The calls are those of the two trees of `Model/BBTree.lean`. -/
theorem C97_same_calls (s : BBTree.State K) (i : Nat) (bb : BB K) (v : V2 K) :
    (∀ s', BBTree.removeDyn s i = some s' → fstep s.dyn (.remove i) = some s'.dyn) ∧
    (∀ s', BBTree.insertDyn s i bb v = some s' → fstep s.dyn (.insert i (BBTree.fatBB bb v) s.stamp) = some s'.dyn) ∧
    fstep s.dyn (.update i bb (BBTree.fatBB bb v) s.stamp) = some (BBTree.leafUpdateDyn s i bb v).1.dyn ∧
    (∀ s', BBTree.removeStat s i = some s' → fstep s.stat (.remove i) = some s'.stat) ∧
    (∀ s', BBTree.insertStat s i bb = some s' → fstep s.stat (.insert i bb s.stamp) = some s'.stat) ∧
    fstep s.stat (.update i bb bb s.stamp) = some (BBTree.leafUpdateStat s i bb).1.stat := by
  refine ⟨fun s' h => ?_, fun s' h => ?_, ?_, fun s' h => ?_, fun s' h => ?_, ?_⟩
  · simp only [BBTree.removeDyn] at h
    simp only [fstep]
    cases hd : s.dyn with
    | none => rw [hd] at h; cases h
    | some t =>
      rw [hd] at h
      simp only at h ⊢
      split at h
      · rename_i hh; rw [if_pos hh]; simp only [Option.some.injEq] at h; rw [← h]
      · cases h
  · simp only [BBTree.insertDyn] at h
    simp only [fstep]
    split at h
    · cases h
    · rename_i hh
      simp only [List.any_append, Bool.or_eq_true, not_or] at hh
      rw [if_neg hh.1]
      simp only [Option.some.injEq] at h
      rw [← h]
      simp [BBTree.leafAddPairsDyn, BBTree.voidMarks]
  · simp only [fstep, BBTree.leafUpdateDyn]
    cases hd : s.dyn with
    | none => simp [hd]
    | some t =>
      simp only
      cases hx : t.find? i with
      | none => simp [hd]
      | some old => simp only; split <;> simp [hd]
  · simp only [BBTree.removeStat] at h
    simp only [fstep]
    cases hd : s.stat with
    | none => rw [hd] at h; cases h
    | some t =>
      rw [hd] at h
      simp only at h ⊢
      split at h
      · rename_i hh; rw [if_pos hh]; simp only [Option.some.injEq] at h; rw [← h]
      · cases h
  · simp only [BBTree.insertStat] at h
    simp only [fstep]
    split at h
    · cases h
    · rename_i hh
      simp only [List.any_append, Bool.or_eq_true, not_or] at hh
      rw [if_neg hh.2]
      simp only [Option.some.injEq] at h
      rw [← h]
      simp only [BBTree.leafAddPairsStat]
      split <;> simp [BBTree.voidMarks]
  · simp only [fstep, BBTree.leafUpdateStat]
    cases hd : s.stat with
    | none => simp [hd]
    | some t =>
      simp only
      cases hx : t.find? i with
      | none => simp [hd]
      | some old => simp only; split <;> simp [hd]

/-! ### Examples -/

/-- Three boxes, one that moves far away, one that goes. -/
def exTreeOps : List (Op ℚ) :=
  [.insert 7 ⟨0, 0, 1, 1⟩ 0, .insert 8 ⟨2, 0, 3, 1⟩ 1, .insert 9 ⟨0, 5, 1, 6⟩ 2, .update 7 ⟨9, 9, 10, 10⟩ ⟨8, 8, 11, 11⟩ 3, .remove 8, .insert 10 ⟨1, 1, 2, 2⟩ 4]

/-- The history is one of those the theorems are about. -/
example : (frun (none : Option (BBTree.Tree ℚ)) exTreeOps).map (fun t => (leavesOf t).map Leaf.id) = some [7, 10, 9] := by decide +kernel

/-- The memory after it. -/
example : ∃ h t, run (new : TH ℚ) exTreeOps = some h ∧ InMemory h (some t) ∧ t.leaves.map Leaf.id = [7, 10, 9] := by
  have e : (frun (none : Option (BBTree.Tree ℚ)) exTreeOps).map (fun t => (leavesOf t).map Leaf.id) = some [7, 10, 9] := by decide +kernel
  cases hf : frun (none : Option (BBTree.Tree ℚ)) exTreeOps with
  | none => rw [hf] at e; cases e
  | some t =>
    rw [hf, Option.map_some, Option.some.injEq] at e
    obtain ⟨h, h1, h2⟩ := C97_memory_refines exTreeOps t hf
    cases t with
    | none => simp [leavesOf] at e
    | some t => exact ⟨h, t, h1, h2, e⟩

/-- C97: `Insert` of a shape that is there links its leaf in twice; after its removal the root is a node of the free list. -/
theorem C97_twice : ∃ (ops : List (Op ℚ)) (h : TH ℚ) (n : Nat), run new ops = some h ∧ FromRoot h n ∧ OnFreeList h n := by
  have e : (run (new : TH ℚ) [.insert 7 ⟨0, 0, 1, 1⟩ 0, .insert 7 ⟨0, 0, 1, 1⟩ 1, .remove 7]).map (fun h => (h.root, h.pooled)) = some (some 1024, some 1024) := by
    decide +kernel
  cases hr : run (new : TH ℚ) [.insert 7 ⟨0, 0, 1, 1⟩ 0, .insert 7 ⟨0, 0, 1, 1⟩ 1, .remove 7] with
  | none => rw [hr] at e; cases e
  | some h =>
    rw [hr, Option.map_some, Option.some.injEq, Prod.mk.injEq] at e
    exact ⟨_, h, 1024, hr, .root e.1, .head e.2⟩

end Cm
