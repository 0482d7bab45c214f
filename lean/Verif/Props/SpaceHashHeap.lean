import Verif.Model.SpaceHashHeap
import Verif.Props.SpaceHashRay
import Verif.Props.HashSetHeap
/-! # C105: the bins of the spatial hash -/
set_option linter.unusedSectionVars false
set_option linter.unusedSimpArgs false
set_option linter.unusedVariables false

namespace Cm
open Hash BinHeap
open HashHeap (put pooledBufferSize)

namespace Spec
/-- The bins of cell `i`, from the pointer `roots i`, are those of `A i`, the free ones those of `P`; no bin is anywhere twice, and only
those of `L` are in neither; `val` tells which handle is in a bin in use. -/
structure BinsLaid (L : List Nat) (b : Mem) (roots : Nat → Option Nat) (A : Nat → List Nat) (P : List Nat) (val : Nat → Nat) : Prop where
  chains : ∀ i, Chain b.next (roots i) (A i)
  pool : Chain b.next b.pooled P
  nodup : ∀ i, (A i).Nodup
  apart : ∀ i j, i ≠ j → ∀ a ∈ A i, a ∉ A j
  free : P.Nodup
  unused : ∀ i, ∀ a ∈ A i, a ∉ P
  made : ∀ i, ∀ a ∈ A i, a < b.made
  pmade : ∀ a ∈ P, a < b.made
  vals : ∀ i, ∀ a ∈ A i, b.handle a = some (val a)
  all : ∀ a < b.made, a ∈ P ∨ (∃ i, a ∈ A i) ∨ a ∈ L

/-- What the memory is without the bins, the cells being `T`. -/
def view (b : Mem) (T : Nat → List Nat) : St := ⟨b.n, b.hd, T, b.set, b.pool, b.now⟩

/-- The handles in the bins of the cells. -/
def tab (A : Nat → List Nat) (val : Nat → Nat) : Nat → List Nat := fun i => (A i).map val

/-- The memory holds the spatial hash `s`. -/
def BinRep (b : Mem) (s : St) : Prop := ∃ A P val, BinsLaid [] b b.table A P val ∧ s = view b (tab A val)
end Spec
open Spec

variable {b : Mem} {roots : Nat → Option Nat} {A : Nat → List Nat} {P : List Nat} {val : Nat → Nat}

theorem Spec.BinsLaid.short (h : BinsLaid [] b roots A P val) (i : Nat) : (A i).length ≤ b.made := length_le_of_nodup (h.nodup i) (h.made i)

/-- Only the links, the free list, the number of bins and the handles in the bins matter. -/
theorem Spec.BinsLaid.same {L : List Nat} {c : Mem} (h : BinsLaid L b roots A P val) (e1 : c.next = b.next) (e2 : c.pooled = b.pooled) (e3 : c.made = b.made) (e4 : c.handle = b.handle) :
    BinsLaid L c roots A P val :=
  ⟨by rw [e1]; exact h.chains, by rw [e1, e2]; exact h.pool, h.nodup, h.apart, h.free, h.unused, by rw [e3]; exact h.made, by rw [e3]; exact h.pmade, by rw [e4]; exact h.vals, by rw [e3]; exact h.all⟩

theorem put_put_self (f : Nat → Option Nat) (i : Nat) (v w : Option Nat) : put (put f i v) i w = put f i w := by
  funext j; unfold put; split <;> rfl

theorem put_same (f : Nat → Option Nat) (i : Nat) : put f i (f i) = f := by
  funext j; unfold put; split
  · rename_i e; rw [e]
  · rfl

/-! ### Making and recycling bins -/

/-- Putting a bin that is nowhere into the free list. -/
theorem laid_recycle {a : Nat} (h : BinsLaid [a] b roots A P val) (ha : ∀ i, a ∉ A i) (hp : a ∉ P) (hm : a < b.made) :
    BinsLaid [] (recycleBin b a) roots A (a :: P) val := by
  refine ⟨fun i => ?_, ⟨rfl, ?_⟩, h.nodup, h.apart, List.nodup_cons.2 ⟨hp, h.free⟩, fun i c hc hcp => ?_, h.made, fun c hc => ?_, h.vals, fun c hc => ?_⟩
  · exact chain_congr _ _ (fun c hc => put_ne _ _ (fun e => ha i (e ▸ hc))) (h.chains i)
  · show Chain (put b.next a b.pooled) (put b.next a b.pooled a) P
    rw [put_self]
    exact chain_congr _ _ (fun c hc => put_ne _ _ (fun e => hp (e ▸ hc))) h.pool
  · rcases List.mem_cons.1 hcp with rfl | hcp
    · exact ha i hc
    · exact h.unused i c hc hcp
  · rcases List.mem_cons.1 hc with rfl | hc
    · exact hm
    · exact h.pmade c hc
  · rcases h.all c hc with h | h | h
    · exact Or.inl (by simp [h])
    · exact Or.inr (Or.inl h)
    · exact Or.inl (by simp [List.mem_singleton.1 h])

theorem laid_alloc (h : BinsLaid [] b roots A P val) : BinsLaid [b.made] (alloc b) roots A P val := by
  have hA : ∀ i, ∀ a ∈ A i, a ≠ b.made := fun i a ha e => by have := h.made i a ha; omega
  have hP : ∀ a ∈ P, a ≠ b.made := fun a ha e => by have := h.pmade a ha; omega
  refine ⟨fun i => ?_, ?_, h.nodup, h.apart, h.free, h.unused, fun i a ha => ?_, fun a ha => ?_, fun i a ha => ?_, fun a ha => ?_⟩
  · exact chain_congr _ _ (fun c hc => put_ne _ _ (hA i c hc)) (h.chains i)
  · exact chain_congr _ _ (fun c hc => put_ne _ _ (hP c hc)) h.pool
  · exact Nat.lt_succ_of_lt (h.made i a ha)
  · exact Nat.lt_succ_of_lt (h.pmade a ha)
  · exact (put_ne _ _ (hA i a ha)).trans (h.vals i a ha)
  · rcases Nat.lt_succ_iff_lt_or_eq.1 ha with ha | ha
    · rcases h.all a ha with h | h | h
      · exact Or.inl h
      · exact Or.inr (Or.inl h)
      · cases h
    · exact Or.inr (Or.inr (by simp [ha]))

/-- The parts of the memory which making bins does not change. -/
def SameRest (b c : Mem) : Prop := c.n = b.n ∧ c.hd = b.hd ∧ c.set = b.set ∧ c.pool = b.pool ∧ c.now = b.now ∧ c.table = b.table

theorem laid_refillBins (k : Nat) : ∀ {b : Mem} {P : List Nat}, BinsLaid [] b roots A P val → ∃ P', BinsLaid [] (refill k b) roots A P' val ∧ SameRest b (refill k b) := by
  induction k with
  | zero => exact fun {b P} h => ⟨P, h, rfl, rfl, rfl, rfl, rfl, rfl⟩
  | succ k ih =>
    intro b P h
    have hA : ∀ i, b.made ∉ A i := fun i ha => by have := h.made i _ ha; omega
    have hP : b.made ∉ P := fun ha => by have := h.pmade _ ha; omega
    obtain ⟨P', h1, h2⟩ := ih (laid_recycle (laid_alloc h) hA hP (Nat.lt_succ_self _))
    exact ⟨P', h1, h2⟩

theorem laid_getEmpty (h : BinsLaid [] b roots A P val) : ∃ P', BinsLaid [(getEmptyBin b).2] (getEmptyBin b).1 roots A P' val ∧ SameRest b (getEmptyBin b).1 ∧
    (∀ i, (getEmptyBin b).2 ∉ A i) ∧ (getEmptyBin b).2 ∉ P' ∧ (getEmptyBin b).2 < (getEmptyBin b).1.made := by
  unfold getEmptyBin
  generalize pooledBufferSize = k
  cases hp : b.pooled with
  | some a =>
    simp only
    cases P with
    | nil => have := h.pool; rw [hp] at this; simp [Chain] at this
    | cons c P =>
      have hc := h.pool
      rw [hp] at hc
      obtain ⟨e, hc⟩ := hc
      rw [Option.some.injEq] at e
      subst e
      have hf := List.nodup_cons.1 h.free
      refine ⟨P, ⟨h.chains, hc, h.nodup, h.apart, hf.2, fun i x hx hxp => h.unused i x hx (by simp [hxp]), h.made, fun x hx => h.pmade x (by simp [hx]), h.vals, fun x hx => ?_⟩,
        ⟨rfl, rfl, rfl, rfl, rfl, rfl⟩, fun i ha => h.unused i a ha (by simp), hf.1, h.pmade a (by simp)⟩
      rcases h.all x hx with h | h | h
      · rcases List.mem_cons.1 h with h | h
        · exact Or.inr (Or.inr (by simp [h]))
        · exact Or.inl h
      · exact Or.inr (Or.inl h)
      · cases h
  | none =>
    simp only
    obtain ⟨P', h1, h2⟩ := laid_refillBins k h
    generalize refill k b = r at h1 h2 ⊢
    obtain ⟨e1, e2, e3, e4, e5, e6⟩ := h2
    exact ⟨P', laid_alloc h1, ⟨e1, e2, e3, e4, e5, e6⟩, fun i ha => by have := h1.made i _ ha; omega, fun ha => by have := h1.pmade _ ha; omega, Nat.lt_succ_self _⟩

/-! ### The loops -/

theorem contains_ok (h : BinsLaid [] b roots A P val) (g i : Nat) : ∀ (k : Nat) (l : List Nat) (p : Option Nat), (∀ a ∈ l, a ∈ A i) → Chain b.next p l → l.length < k →
    containsHandle b g k p = some (decide (g ∈ l.map val)) := by
  intro k
  induction k with
  | zero => intro l p _ _ hk; omega
  | succ k ih =>
    intro l p hl hc hk
    cases l with
    | nil => have : p = none := hc; subst this; rfl
    | cons a l =>
      obtain ⟨rfl, hc⟩ := hc
      rw [containsHandle, h.vals i a (hl a (by simp))]
      by_cases e : val a = g
      · simp [e]
      · rw [if_neg (by simpa using e), ih l _ (fun c hc => hl c (by simp [hc])) hc (by simpa using hk)]
        have : g ∈ List.map val (a :: l) ↔ g ∈ List.map val l := by
          rw [List.map_cons, List.mem_cons]
          exact ⟨fun h => h.resolve_left (fun h => e h.symm), Or.inr⟩
        simp only [this]

/-- Putting a bin for `g` at the front of a cell. -/
theorem laid_push {root : Option Nat} {i g : Nat} (h : BinsLaid [] b (put b.table i root) A P val) :
    BinRep (pushBin b g i root) ((view b (tab A val)).setT i (g :: tab A val i)) := by
  obtain ⟨P', h1, ⟨e1, e2, e3, e4, e5, e6⟩, hA, hP, hm⟩ := laid_getEmpty h
  unfold pushBin
  generalize getEmptyBin b = r at *
  obtain ⟨c, a⟩ := r
  simp only at *
  refine ⟨fun j => if j = i then a :: A i else A j, P', fun x => if x = a then g else val x, ⟨fun j => ?_, ?_, fun j => ?_, fun j k hjk x hx hx' => ?_, h1.free, fun j x hx hxp => ?_,
    fun j x hx => ?_, h1.pmade, fun j x hx => ?_, fun x hx => ?_⟩, ?_⟩
  · have hj := chain_congr (nx' := put c.next a root) _ _ (fun x hx => put_ne _ _ (fun e => hA j (e ▸ hx))) (h1.chains j)
    show Chain (put c.next a root) (put c.table i (some a) j) _
    by_cases e : j = i
    · subst e
      rw [if_pos rfl, put_self]
      refine ⟨rfl, ?_⟩
      rw [put_self]
      rwa [put_self] at hj
    · rw [if_neg e, put_ne _ _ e, e6]
      rwa [put_ne _ _ e] at hj
  · exact chain_congr _ _ (fun x hx => put_ne _ _ (fun e => hP (e ▸ hx))) h1.pool
  · split
    · exact List.nodup_cons.2 ⟨hA i, h1.nodup i⟩
    · exact h1.nodup j
  · have : ∀ {j x}, (x ∈ if j = i then a :: A i else A j) → (x = a ∧ j = i) ∨ x ∈ A j := fun {j x} hx => by
      split at hx
      · rename_i e
        rcases List.mem_cons.1 hx with rfl | hx
        · exact Or.inl ⟨rfl, e⟩
        · exact Or.inr (e ▸ hx)
      · exact Or.inr hx
    rcases this hx with ⟨rfl, rfl⟩ | hx2
    · rcases this hx' with ⟨_, rfl⟩ | hx'
      · exact hjk rfl
      · exact hA _ hx'
    · rcases this hx' with ⟨rfl, rfl⟩ | hx'
      · exact hA _ (by assumption)
      · exact h1.apart j k hjk x hx2 hx'
  · split at hx
    · rcases List.mem_cons.1 hx with rfl | hx
      · exact hP hxp
      · exact h1.unused i x hx hxp
    · exact h1.unused j x hx hxp
  · split at hx
    · rcases List.mem_cons.1 hx with rfl | hx
      · exact hm
      · exact h1.made i x hx
    · exact h1.made j x hx
  · show put c.handle a (some g) x = _
    by_cases e : x = a
    · subst e; rw [put_self, if_pos rfl]
    · rw [put_ne _ _ e, if_neg e]
      split at hx
      · exact h1.vals i x (List.mem_of_ne_of_mem e hx)
      · exact h1.vals j x hx
  · rcases h1.all x hx with h | ⟨j, h⟩ | h
    · exact Or.inl h
    · refine Or.inr (Or.inl ⟨j, ?_⟩)
      split
      · rename_i e; rw [← e]; simp [h]
      · exact h
    · exact Or.inr (Or.inl ⟨i, by simp [List.mem_singleton.1 h]⟩)
  · simp only [St.setT, view, e1, e2, e3, e4, e5, St.mk.injEq, true_and, and_true]
    have hv : ∀ j, (A j).map (fun x => if x = a then g else val x) = (A j).map val := fun j =>
      List.map_congr_left fun x hx => if_neg (fun e : x = a => hA j (e ▸ hx))
    funext j
    by_cases e : j = i
    · subst e
      simp only [tab, if_true, List.map_cons, hv]
    · simp only [tab, if_neg e, hv]

@[simp] theorem view_hd (T : Nat → List Nat) : (view b T).hd = b.hd := rfl
@[simp] theorem view_now (T : Nat → List Nat) : (view b T).now = b.now := rfl
@[simp] theorem view_table (T : Nat → List Nat) : (view b T).table = T := rfl

theorem view_setH (g : Nat) (f : Hand → Hand) (T : Nat → List Nat) : (view b T).setH g f = view (BinHeap.setH b g f) T := rfl

theorem view_retain (g : Nat) (T : Nat → List Nat) : view (BinHeap.retain b g) T = Hash.retain (view b T) g := rfl

theorem view_release (g : Nat) (T : Nat → List Nat) : view (BinHeap.release b g) T = Hash.release (view b T) g := by
  unfold BinHeap.release Hash.release
  have e : (view b T).setH g (fun d => { d with ret := d.ret - 1 }) = view (BinHeap.setH b g fun d => { d with ret := d.ret - 1 }) T := rfl
  rw [e]
  generalize (BinHeap.setH b g fun d => { d with ret := d.ret - 1 }) = c
  by_cases hz : (c.hd g).ret = 0
  · simp only [view_hd, hz, if_true]; rfl
  · simp only [view_hd, hz, if_false]

theorem release_same (g : Nat) : (BinHeap.release b g).next = b.next ∧ (BinHeap.release b g).pooled = b.pooled ∧ (BinHeap.release b g).made = b.made ∧
    (BinHeap.release b g).handle = b.handle ∧ (BinHeap.release b g).table = b.table := by
  unfold BinHeap.release
  simp only
  split <;> exact ⟨rfl, rfl, rfl, rfl, rfl⟩

theorem release_obj (g x : Nat) : ((BinHeap.release b g).hd x).obj = (b.hd x).obj := by
  have : ((BinHeap.setH b g fun d => { d with ret := d.ret - 1 }).hd x).obj = (b.hd x).obj := by
    unfold BinHeap.setH; simp only; split <;> rfl
  unfold BinHeap.release
  simp only
  split <;> exact this

theorem laid_release {L : List Nat} (h : BinsLaid L b roots A P val) (g : Nat) : BinsLaid L (BinHeap.release b g) roots A P val := by
  obtain ⟨e1, e2, e3, e4, e5⟩ := release_same (b := b) g
  exact h.same e1 e2 e3 e4

theorem binRep_addAt {s : St} (h : BinRep b s) (g i : Nat) : ∃ c, BinHeap.addAt b g i = some c ∧ BinRep c (Hash.addAt s g i) := by
  obtain ⟨A, P, val, hl, rfl⟩ := h
  have hc := contains_ok hl g i (b.made + 1) (A i) (b.table i) (fun _ h => h) (hl.chains i) (Nat.lt_succ_of_le (hl.short i))
  unfold BinHeap.addAt Hash.addAt
  rw [hc]
  show ∃ c, _ ∧ BinRep c (if g ∈ (A i).map val then _ else _)
  by_cases hg : g ∈ (A i).map val
  · rw [if_pos hg]; simp only [hg, decide_true]
    exact ⟨b, rfl, A, P, val, hl, rfl⟩
  · rw [if_neg hg]; simp only [hg, decide_false]
    refine ⟨_, rfl, ?_⟩
    have : BinsLaid [] (BinHeap.retain b g) (put (BinHeap.retain b g).table i (b.table i)) A P val := by
      show BinsLaid [] _ (put b.table i (b.table i)) A P val
      rw [put_same]
      exact hl.same rfl rfl rfl rfl
    exact laid_push this

theorem binRep_hashHandle (g : Nat) : ∀ (l : List Nat) {b : Mem} {s : St}, BinRep b s → ∃ c, BinHeap.hashHandle g l b = some c ∧ BinRep c (Hash.hashHandle s g l)
  | [], b, s, h => ⟨b, rfl, h⟩
  | i :: l, b, s, h => by
    obtain ⟨c, e, hc⟩ := binRep_addAt h g i
    obtain ⟨d, e', hd⟩ := binRep_hashHandle g l hc
    exact ⟨d, by rw [BinHeap.hashHandle, e]; exact e', hd⟩

theorem binRep_find {s : St} (h : BinRep b s) (x : Nat) : BinHeap.find b x = Hash.find s x := by
  obtain ⟨A, P, val, hl, rfl⟩ := h; rfl

theorem binRep_insert {s : St} (h : BinRep b s) (x g : Nat) (l : List Nat) : ∃ c, BinHeap.insert b x g l = some c ∧ BinRep c (Hash.insert s x g l) := by
  unfold BinHeap.insert Hash.insert
  rw [binRep_find h]
  cases Hash.find s x with
  | some g' => exact binRep_hashHandle g' l h
  | none =>
    obtain ⟨A, P, val, hl, rfl⟩ := h
    exact binRep_hashHandle g l ⟨A, P, val, hl.same rfl rfl rfl rfl, rfl⟩

theorem binRep_remove {s : St} (h : BinRep b s) (x : Nat) : BinRep (BinHeap.remove b x) (Hash.remove s x) := by
  unfold BinHeap.remove Hash.remove
  rw [binRep_find h]
  cases Hash.find s x with
  | none => exact h
  | some g =>
    obtain ⟨A, P, val, hl, rfl⟩ := h
    simp only
    refine ⟨A, P, val, ?_, ?_⟩
    · rw [(release_same g).2.2.2.2]
      refine laid_release ?_ g
      exact hl.same rfl rfl rfl rfl
    · rw [view_release]; rfl

theorem binRep_reindexObject {s : St} (h : BinRep b s) (x g : Nat) (l : List Nat) : ∃ c, BinHeap.reindexObject b x g l = some c ∧ BinRep c (Hash.reindexObject s x g l) := by
  unfold BinHeap.reindexObject Hash.reindexObject
  rw [binRep_find h]
  cases Hash.find s x with
  | none => exact ⟨b, rfl, h⟩
  | some g' => exact binRep_insert (binRep_remove h x) x g l

/-! ### Queries -/

theorem scan_ok {T : Nat → List Nat} (obj : Option Nat) : ∀ (k : Nat) (l : List Nat) (p : Option Nat) (b : Mem), (∀ a ∈ l, b.handle a = some (val a)) → Chain b.next p l → l.length < k →
    ∃ hd out fl, BinHeap.scan obj k p b = some ({ b with hd := hd }, out, fl) ∧ Hash.scan obj (l.map val) (view b T) = (view { b with hd := hd } T, out, fl) := by
  intro k
  induction k with
  | zero => intro l p b _ _ hk; omega
  | succ k ih =>
    intro l p b hv hc hk
    cases l with
    | nil => have : p = none := hc; subst this; exact ⟨b.hd, [], false, rfl, rfl⟩
    | cons a l =>
      obtain ⟨rfl, hc⟩ := hc
      rw [BinHeap.scan, hv a (by simp), List.map_cons, Hash.scan]
      simp only [view_hd, view_now, view_setH]
      have hk' : l.length < k := by simpa using hk
      have hv' : ∀ c ∈ l, b.handle c = some (val c) := fun c hc => hv c (by simp [hc])
      by_cases hs : (b.hd (val a)).stamp = b.now ∨ isObj obj (b.hd (val a)) = true
      · simp only [hs, if_true]
        exact ih l _ b hv' hc hk'
      · simp only [hs, if_false]
        cases ho : (b.hd (val a)).obj with
        | none => exact ⟨b.hd, [], true, rfl, rfl⟩
        | some y =>
          obtain ⟨hd, out, fl, e1, e2⟩ := ih l _ (BinHeap.setH b (val a) fun d => { d with stamp := b.now }) hv' hc hk'
          refine ⟨hd, y :: out, fl, ?_, ?_⟩
          · simp only
            rw [e1]; rfl
          · simp only
            rw [e2]; rfl

/-- The loop that takes the orphans out of a cell: `K` are the bins passed, `l` those to come. -/
theorem orphans_ok (i : Nat) : ∀ (k : Nat) (l K : List Nat) (root : Option Nat) (b : Mem) (A : Nat → List Nat) (P : List Nat),
    BinsLaid [] b (put roots i root) A P val → A i = K ++ l → (∀ a ∈ K, (b.hd (val a)).obj ≠ none) → l.length < k →
    ∃ c r A' P', BinHeap.removeOrphans k l.head? K.getLast? root b = some (c, r) ∧ BinsLaid [] c (put roots i r) A' P' val ∧
      Hash.removeOrphans i (l.map val) (view b (tab A val)) = view c (tab A' val) ∧ c.made = b.made ∧ c.table = b.table := by
  intro k
  induction k with
  | zero => intro l K root b A P _ _ _ hk; omega
  | succ k ih =>
    intro l K root b A P h hA hK hk
    cases l with
    | nil => exact ⟨b, root, A, P, rfl, h, rfl, rfl, rfl⟩
    | cons a l =>
      have hk' : l.length < k := by simpa using hk
      have ha : a ∈ A i := by rw [hA]; simp
      have hch := h.chains i
      rw [put_self, hA] at hch
      have hnx : b.next a = l.head? := chain_head (chain_after K hch)
      rw [List.head?_cons, BinHeap.removeOrphans, h.vals i a ha, List.map_cons, Hash.removeOrphans]
      simp only [view_hd, hnx]
      by_cases ho : (b.hd (val a)).obj = none
      · simp only [ho, if_true]
        have hnd := h.nodup i
        rw [hA] at hnd
        have haK : a ∉ K ++ l := (List.nodup_cons.1 ((List.Perm.nodup_iff List.perm_middle).1 hnd)).1
        have hndKl : (K ++ l).Nodup := (List.nodup_cons.1 ((List.Perm.nodup_iff List.perm_middle).1 hnd)).2
        -- the list of bins without `a`
        have hE : dropAt (view b (tab A val)) i (val a) = Hash.release (view b (tab (fun j => if j = i then K ++ l else A j) val)) (val a) := by
          have : ((view b (tab A val)).table i).erase (val a) = (K ++ l).map val := by
            show ((A i).map val).erase (val a) = _
            rw [hA, List.map_append, List.map_cons, List.erase_append_right _ (fun hm => ?_), List.erase_cons_head, List.map_append]
            obtain ⟨q, hq, e⟩ := List.mem_map.1 hm
            exact hK q hq (by rw [e]; exact ho)
          unfold dropAt
          rw [this]
          congr 1
          simp only [St.setT, view, St.mk.injEq, true_and, and_true]
          funext j
          simp only [tab]
          split <;> rfl
        rw [hE]
        have key : ∀ (b1 : Mem) (r : Option Nat), b1.handle = b.handle → b1.made = b.made → b1.pooled = b.pooled → b1.hd = b.hd → b1.table = b.table →
            Chain b1.next r (K ++ l) → (∀ x, x ∉ K → b1.next x = b.next x) →
            BinsLaid [] (BinHeap.release (recycleBin b1 a) (val a)) (put roots i r) (fun j => if j = i then K ++ l else A j) (a :: P) val := by
          intro b1 r e1 e2 e3 e4 e5 hc he
          have sub : ∀ {j x}, (x ∈ if j = i then K ++ l else A j) → x ∈ A j := fun {j x} hx => by
            split at hx
            · rename_i e; rw [e, hA]
              rcases List.mem_append.1 hx with hx | hx <;> simp [hx]
            · exact hx
          refine laid_release (laid_recycle ⟨fun j => ?_, ?_, fun j => ?_, fun j m hjm x hx => ?_, h.free, fun j x hx => ?_, fun j x hx => ?_, ?_, fun j x hx => ?_, fun x hx => ?_⟩ (fun j hx => ?_) (h.unused i a ha) (by rw [e2]; exact h.made i a ha)) _
          · by_cases e : j = i
            · subst e; rw [put_self, if_pos rfl]; exact hc
            · rw [put_ne _ _ e, if_neg e]
              have := h.chains j
              rw [put_ne _ _ e] at this
              refine chain_congr _ _ (fun x hx => he x (fun hx' => ?_)) this
              exact h.apart j i e x hx (by rw [hA]; simp [hx'])
          · rw [e3]
            exact chain_congr _ _ (fun x hx => he x (fun hx' => h.unused i x (by rw [hA]; simp [hx']) hx)) h.pool
          · split
            · exact hndKl
            · exact h.nodup j
          · exact fun hx' => h.apart j m hjm x (sub hx) (sub hx')
          · exact h.unused j x (sub hx)
          · rw [e2]; exact h.made j x (sub hx)
          · rw [e2]; exact h.pmade
          · rw [e1]; exact h.vals j x (sub hx)
          · rcases h.all x (by rw [← e2]; exact hx) with h | ⟨j, h⟩ | h
            · exact Or.inl h
            · by_cases e : j = i
              · rw [e, hA] at h
                by_cases e' : x = a
                · exact Or.inr (Or.inr (by simp [e']))
                · refine Or.inr (Or.inl ⟨i, ?_⟩)
                  rw [if_pos rfl]
                  simpa [e'] using h
              · exact Or.inr (Or.inl ⟨j, by rw [if_neg e]; exact h⟩)
            · cases h
          · split at hx
            · exact haK hx
            · rename_i e; exact h.apart j i e a hx ha
        have hKr : ∀ b1 : Mem, b1.hd = b.hd → ∀ q ∈ K, ((BinHeap.release (recycleBin b1 a) (val a)).hd (val q)).obj ≠ none := by
          intro b1 e q hq
          rw [release_obj]
          show (b1.hd (val q)).obj ≠ none
          rw [e]
          exact hK q hq
        rcases List.eq_nil_or_concat K with rfl | ⟨K', q, rfl⟩
        · simp only [List.getLast?_nil]
          have hc : Chain b.next l.head? ([] ++ l) := by rw [← hnx]; exact hch.2
          have := key b l.head? rfl rfl rfl rfl rfl hc (fun _ _ => rfl)
          obtain ⟨c, r, A', P', x1, x2, x3, x4, x5⟩ := ih l [] l.head? _ _ _ this (by simp) (by simp) hk'
          refine ⟨c, r, A', P', x1, x2, ?_, ?_, ?_⟩
          · rw [← x3, view_release]; rfl
          · rw [x4, (release_same _).2.2.1]; rfl
          · rw [x5, (release_same _).2.2.2.2]; rfl
        · rw [List.concat_eq_append] at *
          simp only [List.getLast?_append, List.getLast?_singleton, Option.some_or]
          have hc := chain_splice K' (by simpa using hch) (by simpa using hnd)
          rw [hnx] at hc
          have := key { b with next := put b.next q l.head? } root rfl rfl rfl rfl rfl (by simpa using hc) (fun x hx => put_ne _ _ (fun e => hx (by simp [e])))
          obtain ⟨c, r, A', P', x1, x2, x3, x4, x5⟩ := ih l (K' ++ [q]) root _ _ _ this (by simp) (hKr _ rfl) hk'
          refine ⟨c, r, A', P', ?_, x2, ?_, ?_, ?_⟩
          · rw [← x1]; simp
          · rw [← x3, view_release]; rfl
          · rw [x4, (release_same _).2.2.1]; rfl
          · rw [x5, (release_same _).2.2.2.2]; rfl
      · simp only [ho, if_false]
        obtain ⟨c, r, A', P', x1, x2, x3, x4, x5⟩ := ih l (K ++ [a]) root b A P h (by simp [hA]) (fun q hq => by
          rcases List.mem_append.1 hq with hq | hq
          · exact hK q hq
          · rw [List.mem_singleton.1 hq]; exact ho) hk'
        exact ⟨c, r, A', P', by rw [← x1]; simp, x2, x3, x4, x5⟩

theorem queryHelper_ok (obj : Option Nat) (i : Nat) : ∀ (m k : Nat) (root : Option Nat) (b : Mem) (A : Nat → List Nat) (P : List Nat) (t : St) (out : List Nat), m ≤ k →
    BinsLaid [] b (put roots i root) A P val → Hash.queryCell obj i m (view b (tab A val)) = some (t, out) →
    ∃ c r A' P', queryHelper obj k root b = some (c, r, out) ∧ BinsLaid [] c (put roots i r) A' P' val ∧ t = view c (tab A' val) ∧ c.made = b.made ∧ c.table = b.table := by
  intro m
  induction m with
  | zero => intro k root b A P t out _ _ h; cases h
  | succ m ih =>
    intro k root b A P t out hmk h hq
    obtain ⟨k, rfl⟩ : ∃ k', k = k' + 1 := ⟨k - 1, by omega⟩
    have hch := h.chains i
    rw [put_self] at hch
    have hlen := Nat.lt_succ_of_le (h.short i)
    obtain ⟨hd, o, fl, e1, e2⟩ := scan_ok (T := tab A val) obj (b.made + 1) (A i) root b (h.vals i) hch hlen
    rw [Hash.queryCell] at hq
    rw [show (view b (tab A val)).table i = (A i).map val from rfl, e2] at hq
    rw [queryHelper, e1]
    have h1 : BinsLaid [] { b with hd := hd } (put roots i root) A P val := h.same rfl rfl rfl rfl
    cases fl with
    | false =>
      simp only [Option.some.injEq, Prod.mk.injEq] at hq
      obtain ⟨rfl, rfl⟩ := hq
      exact ⟨_, root, A, P, rfl, h1, rfl, rfl, rfl⟩
    | true =>
      simp only at hq ⊢
      obtain ⟨c, r, A', P', x1, x2, x3, x4, x5⟩ := orphans_ok (roots := roots) i (b.made + 1) (A i) [] root _ A P h1 (by simp) (by simp) hlen
      rw [← chain_head hch] at x1
      simp only [List.getLast?_nil] at x1
      rw [x1]
      rw [show (view { b with hd := hd } (tab A val)).table i = (A i).map val from rfl, x3] at hq
      cases hq2 : Hash.queryCell obj i m (view c (tab A' val)) with
      | none => rw [hq2] at hq; cases hq
      | some q =>
        rw [hq2] at hq
        simp only [Option.some.injEq, Prod.mk.injEq] at hq
        obtain ⟨rfl, rfl⟩ := hq
        obtain ⟨d, r', A2, P2, y1, y2, y3, y4, y5⟩ := ih k r c A' P' q.1 q.2 (by omega) x2 hq2
        refine ⟨d, r', A2, P2, ?_, y2, y3, y4.trans x4, y5.trans x5⟩
        simp only
        rw [y1]; rfl

theorem binRep_queryCell {s t : St} {out : List Nat} (h : BinRep b s) (obj : Option Nat) (i : Nat) (hq : Hash.queryCell obj i ((s.table i).length + 1) s = some (t, out)) :
    ∃ c, BinHeap.queryCell obj i b = some (c, out) ∧ BinRep c t := by
  obtain ⟨A, P, val, hl, rfl⟩ := h
  have hl' : BinsLaid [] b (put b.table i (b.table i)) A P val := by rw [put_same]; exact hl
  have hlen : ((view b (tab A val)).table i).length + 1 ≤ b.made + 1 := by
    show ((A i).map val).length + 1 ≤ _
    rw [List.length_map]; exact Nat.succ_le_succ (hl.short i)
  obtain ⟨c, r, A', P', x1, x2, x3, x4, x5⟩ := queryHelper_ok obj i _ (b.made + 1) (b.table i) b A P t out hlen hl' hq
  unfold BinHeap.queryCell
  rw [x1]
  exact ⟨_, rfl, A', P', val, by show BinsLaid [] _ (put c.table i r) _ _ _; rw [x5]; exact x2.same rfl rfl rfl rfl, x3⟩

theorem binRep_queryCells (obj : Option Nat) : ∀ (l : List Nat) {b : Mem} {s t : St} {out : List Nat}, BinRep b s → Hash.queryCells obj l s = some (t, out) →
    ∃ c, BinHeap.queryCells obj l b = some (c, out) ∧ BinRep c t
  | [], b, s, t, out, h, hq => by
    simp only [Hash.queryCells, Option.some.injEq, Prod.mk.injEq] at hq
    obtain ⟨rfl, rfl⟩ := hq
    exact ⟨b, rfl, h⟩
  | i :: l, b, s, t, out, h, hq => by
    rw [Hash.queryCells] at hq
    cases h1 : Hash.queryCell obj i ((s.table i).length + 1) s with
    | none => rw [h1] at hq; cases hq
    | some r =>
      rw [h1] at hq
      simp only at hq
      cases h2 : Hash.queryCells obj l r.1 with
      | none => rw [h2] at hq; cases hq
      | some q =>
        rw [h2] at hq
        simp only [Option.some.injEq, Prod.mk.injEq] at hq
        obtain ⟨rfl, rfl⟩ := hq
        obtain ⟨c, e, hc⟩ := binRep_queryCell h obj i h1
        obtain ⟨d, e', hd⟩ := binRep_queryCells obj l hc h2
        refine ⟨d, ?_, hd⟩
        rw [BinHeap.queryCells, e]; simp only; rw [e']

theorem binRep_now {s : St} (h : BinRep b s) : BinRep { b with now := b.now + 1 } { s with now := s.now + 1 } := by
  obtain ⟨A, P, val, hl, rfl⟩ := h
  exact ⟨A, P, val, hl.same rfl rfl rfl rfl, rfl⟩

theorem binRep_query {s t : St} {out : List Nat} (h : BinRep b s) (obj : Option Nat) (l : List Nat) (hq : Hash.query s obj l = some (t, out)) :
    ∃ c, BinHeap.query b obj l = some (c, out) ∧ BinRep c t := by
  unfold Hash.query at hq
  cases h1 : Hash.queryCells obj l s with
  | none => rw [h1] at hq; cases hq
  | some r =>
    rw [h1] at hq
    simp only [Option.some.injEq, Prod.mk.injEq] at hq
    obtain ⟨rfl, rfl⟩ := hq
    obtain ⟨c, e, hc⟩ := binRep_queryCells obj l h h1
    refine ⟨_, ?_, binRep_now hc⟩
    unfold BinHeap.query
    rw [e]

/-! ### Emptying the table -/

theorem clearChain_ok (i : Nat) : ∀ (k : Nat) (l : List Nat) (b : Mem) (A : Nat → List Nat) (P : List Nat), BinsLaid [] b (put roots i l.head?) A P val → A i = l → l.length < k →
    ∃ c A' P', clearChain k l.head? b = some c ∧ BinsLaid [] c (put roots i none) A' P' val ∧
      (l.map val).foldl (fun s h => dropAt s i h) (view b (tab A val)) = view c (tab A' val) ∧ c.table = b.table := by
  intro k
  induction k with
  | zero => intro l b A P _ _ hk; omega
  | succ k ih =>
    intro l b A P h hA hk
    cases l with
    | nil => exact ⟨b, A, P, rfl, h, rfl, rfl⟩
    | cons a l =>
      have hk' : l.length < k := by simpa using hk
      have ha : a ∈ A i := by rw [hA]; simp
      have hch := h.chains i
      rw [put_self, hA] at hch
      have hnx : b.next a = l.head? := chain_head hch.2
      have hnd := h.nodup i
      rw [hA, List.nodup_cons] at hnd
      rw [List.head?_cons, clearChain, h.vals i a ha, hnx, List.map_cons, List.foldl_cons]
      simp only
      have hE : dropAt (view b (tab A val)) i (val a) = view (recycleBin (BinHeap.release b (val a)) a) (tab (fun j => if j = i then l else A j) val) := by
        have : view (recycleBin (BinHeap.release b (val a)) a) (tab (fun j => if j = i then l else A j) val) = view (BinHeap.release b (val a)) (tab (fun j => if j = i then l else A j) val) := rfl
        rw [this, view_release]
        unfold dropAt
        rw [show ((view b (tab A val)).table i).erase (val a) = l.map val by
          show ((A i).map val).erase (val a) = _
          rw [hA, List.map_cons, List.erase_cons_head]]
        congr 1
        simp only [St.setT, view, St.mk.injEq, true_and, and_true]
        funext j
        simp only [tab]
        split <;> rfl
      rw [hE]
      have sub : ∀ {j x}, (x ∈ if j = i then l else A j) → x ∈ A j := fun {j x} hx => by
        split at hx
        · rename_i e; rw [e, hA]; simp [hx]
        · exact hx
      have key : BinsLaid [] (recycleBin (BinHeap.release b (val a)) a) (put roots i l.head?) (fun j => if j = i then l else A j) (a :: P) val := by
        refine laid_recycle (laid_release ⟨fun j => ?_, h.pool, fun j => ?_, fun j m hjm x hx hx' => h.apart j m hjm x (sub hx) (sub hx'), h.free, fun j x hx => h.unused j x (sub hx),
          fun j x hx => h.made j x (sub hx), h.pmade, fun j x hx => h.vals j x (sub hx), fun x hx => ?_⟩ _) (fun j hx => ?_) (h.unused i a ha) (by rw [(release_same _).2.2.1]; exact h.made i a ha)
        · by_cases e : j = i
          · subst e; rw [put_self, if_pos rfl, ← hnx]; exact hch.2
          · have := h.chains j
            rw [put_ne _ _ e] at this ⊢
            rw [if_neg e]; exact this
        · split
          · exact hnd.2
          · exact h.nodup j
        · rcases h.all x hx with h | ⟨j, h⟩ | h
          · exact Or.inl h
          · by_cases e : j = i
            · rw [e, hA] at h
              by_cases e' : x = a
              · exact Or.inr (Or.inr (by simp [e']))
              · refine Or.inr (Or.inl ⟨i, ?_⟩)
                rw [if_pos rfl]
                simpa [e'] using h
            · exact Or.inr (Or.inl ⟨j, by rw [if_neg e]; exact h⟩)
          · cases h
        · split at hx
          · exact hnd.1 hx
          · rename_i e; exact h.apart j i e a hx ha
      obtain ⟨c, A', P', x1, x2, x3, x4⟩ := ih l _ _ _ key (by simp) hk'
      exact ⟨c, A', P', x1, x2, x3, x4.trans ((release_same _).2.2.2.2)⟩

theorem binRep_clearCell {s : St} (h : BinRep b s) (i : Nat) : ∃ c, BinHeap.clearCell b i = some c ∧ BinRep c (Hash.clearCell s i) := by
  obtain ⟨A, P, val, hl, rfl⟩ := h
  have hh := chain_head (hl.chains i)
  have hl' : BinsLaid [] b (put b.table i (A i).head?) A P val := by rw [← hh, put_same]; exact hl
  obtain ⟨c, A', P', x1, x2, x3, x4⟩ := clearChain_ok i (b.made + 1) (A i) b A P hl' rfl (Nat.lt_succ_of_le (hl.short i))
  unfold BinHeap.clearCell
  rw [hh, x1]
  exact ⟨_, rfl, A', P', val, by show BinsLaid [] _ (put c.table i none) _ _ _; rw [x4]; exact x2.same rfl rfl rfl rfl, x3⟩

theorem binRep_clearCells : ∀ (l : List Nat) {b : Mem} {s : St}, BinRep b s → ∃ c, clearCells l b = some c ∧ BinRep c (l.foldl Hash.clearCell s)
  | [], b, s, h => ⟨b, rfl, h⟩
  | i :: l, b, s, h => by
    obtain ⟨c, e, hc⟩ := binRep_clearCell h i
    obtain ⟨d, e', hd⟩ := binRep_clearCells l hc
    exact ⟨d, by rw [clearCells, e]; exact e', hd⟩

theorem binRep_clearTable {s : St} (h : BinRep b s) : ∃ c, BinHeap.clearTable b = some c ∧ BinRep c (Hash.clearTable s) := by
  have : s.n = b.n := by obtain ⟨A, P, val, hl, rfl⟩ := h; rfl
  unfold BinHeap.clearTable Hash.clearTable
  rw [this]
  exact binRep_clearCells _ h

/-! ### `ReindexQuery` -/

theorem binRep_rehashCells (g : Nat) : ∀ (l : List Nat) {b : Mem} {s t : St} {out : List Nat}, BinRep b s → Hash.rehashCells g l s = some (t, out) →
    ∃ c, BinHeap.rehashCells g l b = some (c, out) ∧ BinRep c t
  | [], b, s, t, out, h, hq => by
    simp only [Hash.rehashCells, Option.some.injEq, Prod.mk.injEq] at hq
    obtain ⟨rfl, rfl⟩ := hq
    exact ⟨b, rfl, h⟩
  | i :: l, b, s, t, out, h, hq => by
    obtain ⟨A, P, val, hl, rfl⟩ := h
    have hc := contains_ok hl g i (b.made + 1) (A i) (b.table i) (fun _ h => h) (hl.chains i) (Nat.lt_succ_of_le (hl.short i))
    rw [Hash.rehashCells] at hq
    rw [BinHeap.rehashCells, hc]
    rw [show (view b (tab A val)).table i = (A i).map val from rfl] at hq
    by_cases hg : g ∈ (A i).map val
    · rw [if_pos hg] at hq
      simp only [hg, decide_true]
      exact binRep_rehashCells g l ⟨A, P, val, hl, rfl⟩ hq
    · rw [if_neg hg] at hq
      simp only [hg, decide_false]
      simp only [← view_retain] at hq
      have hl' : BinsLaid [] (BinHeap.retain b g) (put b.table i (b.table i)) A P val := by rw [put_same]; exact hl.same rfl rfl rfl rfl
      have hlen : ((view (BinHeap.retain b g) (tab A val)).table i).length + 1 ≤ b.made + 1 := by
        show ((A i).map val).length + 1 ≤ _
        rw [List.length_map]; exact Nat.succ_le_succ (hl.short i)
      rw [view_hd] at hq
      cases h1 : Hash.queryCell ((BinHeap.retain b g).hd g).obj i (((view (BinHeap.retain b g) (tab A val)).table i).length + 1) (view (BinHeap.retain b g) (tab A val)) with
      | none => rw [h1] at hq; cases hq
      | some r =>
        rw [h1] at hq
        simp only at hq
        obtain ⟨c, r', A', P', x1, x2, x3, x4, x5⟩ := queryHelper_ok _ i _ (b.made + 1) (b.table i) _ A P r.1 r.2 hlen hl' h1
        have x2' : BinsLaid [] c (put c.table i r') A' P' val := by rw [x5]; exact x2
        have hp := laid_push (g := g) x2'
        rw [x3] at hq
        cases h2 : Hash.rehashCells g l ((view c (tab A' val)).setT i (g :: (view c (tab A' val)).table i)) with
        | none => rw [h2] at hq; cases hq
        | some q =>
          rw [h2] at hq
          simp only [Option.some.injEq, Prod.mk.injEq] at hq
          obtain ⟨rfl, rfl⟩ := hq
          obtain ⟨d, e', hd⟩ := binRep_rehashCells g l hp h2
          refine ⟨d, ?_, hd⟩
          rw [show (BinHeap.retain b g).made + 1 = b.made + 1 from rfl, x1]
          simp only
          rw [e']

theorem binRep_rehashAll (cells : Nat → List Nat) : ∀ (l : List Nat) {b : Mem} {s t : St} {out : List (Nat × Nat)}, BinRep b s → Hash.rehashAll cells l s = some (t, out) →
    ∃ c, BinHeap.rehashAll cells l b = some (c, out) ∧ BinRep c t
  | [], b, s, t, out, h, hq => by
    simp only [Hash.rehashAll, Option.some.injEq, Prod.mk.injEq] at hq
    obtain ⟨rfl, rfl⟩ := hq
    exact ⟨b, rfl, h⟩
  | g :: l, b, s, t, out, h, hq => by
    have hd : s.hd = b.hd := by obtain ⟨A, P, val, hl, rfl⟩ := h; rfl
    rw [Hash.rehashAll, hd] at hq
    rw [BinHeap.rehashAll]
    cases ho : (b.hd g).obj with
    | none => rw [ho] at hq; cases hq
    | some x =>
      rw [ho] at hq
      simp only at hq ⊢
      cases h1 : Hash.rehashCells g (cells x) s with
      | none => rw [h1] at hq; cases hq
      | some r =>
        rw [h1] at hq
        simp only at hq
        obtain ⟨c, e, hc⟩ := binRep_rehashCells g (cells x) (out := r.2) h h1
        rw [e]
        simp only
        cases h2 : Hash.rehashAll cells l { r.1 with now := r.1.now + 1 } with
        | none => rw [h2] at hq; cases hq
        | some q =>
          rw [h2] at hq
          simp only [Option.some.injEq, Prod.mk.injEq] at hq
          obtain ⟨rfl, rfl⟩ := hq
          obtain ⟨d, e', hd⟩ := binRep_rehashAll cells l (binRep_now hc) h2
          refine ⟨d, ?_, hd⟩
          rw [e']

theorem binRep_reindexQuery {s t : St} {out : List (Nat × Nat)} (h : BinRep b s) (cells : Nat → List Nat) (order : List Nat) (hq : Hash.reindexQuery s cells order = some (t, out)) :
    ∃ c, BinHeap.reindexQuery b cells order = some (c, out) ∧ BinRep c t := by
  obtain ⟨c, e, hc⟩ := binRep_clearTable h
  unfold BinHeap.reindexQuery
  rw [e]
  exact binRep_rehashAll cells order hc hq

/-! ### Ray casts and whole histories -/
variable {K : Type} [Field K] [LinearOrder K] [IsStrictOrderedRing K] [FloorRing K]

theorem binRep_rayLoop (f : Nat → K) : ∀ (k : Nat) (tExit : K) (w : Walk K) {b : Mem} {s : St} {r : St × List Nat × K}, BinRep b s → Hash.rayLoop f k tExit w s = some r →
    ∃ c, BinHeap.rayLoop f k tExit w b = some (c, r.2) ∧ BinRep c r.1
  | 0, _, _, _, _, _, _, h => by cases h
  | k + 1, tExit, w, b, s, r, h, hq => by
    have hn : s.n = b.n := by obtain ⟨A, P, val, hl, rfl⟩ := h; rfl
    rw [Hash.rayLoop] at hq
    rw [BinHeap.rayLoop]
    by_cases ht : w.t < tExit
    · rw [if_pos ht] at hq ⊢
      rw [hn] at hq
      cases h1 : Hash.queryCell none (hashFunc w.cx w.cy b.n) ((s.table (hashFunc w.cx w.cy b.n)).length + 1) s with
      | none => rw [h1] at hq; cases hq
      | some p =>
        rw [h1] at hq
        simp only at hq
        obtain ⟨c, e, hc⟩ := binRep_queryCell (out := p.2) h none _ h1
        rw [e]
        simp only
        cases h2 : Hash.rayLoop f k (min tExit (bound f p.2)) w.next p.1 with
        | none => rw [h2] at hq; cases hq
        | some q =>
          rw [h2] at hq
          simp only [Option.some.injEq] at hq
          subst hq
          obtain ⟨d, e', hd⟩ := binRep_rayLoop f k _ _ hc h2
          exact ⟨d, by rw [e'], hd⟩
    · rw [if_neg ht] at hq ⊢
      simp only [Option.some.injEq] at hq
      subst hq
      exact ⟨b, rfl, h⟩

theorem binRep_segmentQuery {s : St} {r : St × List Nat × K} (h : BinRep b s) (dim inf : K) (p q : V2 K) (tExit : K) (f : Nat → K) (fuel : Nat)
    (hq : Hash.segmentQuery dim inf s p q tExit f fuel = some r) : ∃ c, BinHeap.segmentQuery dim inf b p q tExit f fuel = some (c, r.2) ∧ BinRep c r.1 := by
  unfold Hash.segmentQuery at hq
  cases h1 : Hash.rayLoop f fuel tExit (Walk.start inf (p.scale (1 / dim)) (q.scale (1 / dim))) s with
  | none => rw [h1] at hq; cases hq
  | some r' =>
    rw [h1] at hq
    simp only [Option.some.injEq] at hq
    subst hq
    obtain ⟨c, e, hc⟩ := binRep_rayLoop f fuel tExit _ h h1
    refine ⟨_, ?_, binRep_now hc⟩
    unfold BinHeap.segmentQuery
    rw [e]

theorem binRep_new (n : Nat) : BinRep (BinHeap.new n) (Hash.empty n) :=
  ⟨fun _ => [], [], fun _ => 0, ⟨fun _ => rfl, rfl, by simp, by simp, by simp, by simp, by simp, by simp, by simp, fun a ha => absurd ha (Nat.not_lt_zero a)⟩, rfl⟩

/-- The call, on the memory. -/
def HOp.runMem (dim : K) (b : Mem) : HOp K → Option Mem
  | .insert x h bb => BinHeap.insert b x h (cells dim b.n bb)
  | .remove x => some (BinHeap.remove b x)
  | .move x h bb => BinHeap.reindexObject b x h (cells dim b.n bb)
  | .query obj bb => (BinHeap.query b obj (cells dim b.n bb)).map (·.1)
  | .update bb order => (BinHeap.reindexQuery b (fun x => cells dim b.n (bb x)) order).map (·.1)

/-- Several calls, on the memory. -/
def memRuns (dim : K) : List (HOp K) → Mem → Option Mem
  | [], b => some b
  | o :: l, b => match o.runMem dim b with
    | none => none
    | some c => memRuns dim l c

theorem memRuns_snoc (dim : K) (o : HOp K) : ∀ (l : List (HOp K)) (b : Mem), memRuns dim (l ++ [o]) b = (memRuns dim l b).bind (o.runMem dim)
  | [], b => by simp only [List.nil_append, memRuns, Option.bind_some]; cases o.runMem dim b <;> rfl
  | p :: l, b => by
    rw [List.cons_append, memRuns, memRuns]
    cases p.runMem dim b with
    | none => rfl
    | some c => exact memRuns_snoc dim o l c

/-- **C105** In whatever state the index is, each call on the memory does what it does on lists. -/
theorem C105_step {s t : St} (h : BinRep b s) (dim : K) (o : HOp K) (ho : o.run dim s = some t) : ∃ c, o.runMem dim b = some c ∧ BinRep c t := by
  have hn : s.n = b.n := by obtain ⟨A, P, val, hl, rfl⟩ := h; rfl
  cases o with
  | insert x g bb =>
    simp only [HOp.run, Option.some.injEq] at ho
    subst ho
    rw [hn]; exact binRep_insert h x g _
  | remove x =>
    simp only [HOp.run, Option.some.injEq] at ho
    subst ho
    exact ⟨_, rfl, binRep_remove h x⟩
  | move x g bb =>
    simp only [HOp.run, Option.some.injEq] at ho
    subst ho
    rw [hn]; exact binRep_reindexObject h x g _
  | query obj bb =>
    simp only [HOp.run, Option.map_eq_some_iff, hn] at ho
    obtain ⟨r, e, rfl⟩ := ho
    obtain ⟨c, e', hc⟩ := binRep_query (out := r.2) h obj _ e
    exact ⟨c, by simp only [HOp.runMem, e', Option.map_some], hc⟩
  | update bb order =>
    simp only [HOp.run, Option.map_eq_some_iff, hn] at ho
    obtain ⟨r, e, rfl⟩ := ho
    obtain ⟨c, e', hc⟩ := binRep_reindexQuery (out := r.2) h _ order e
    exact ⟨c, by simp only [HOp.runMem, e', Option.map_some], hc⟩

/-- **C105** No call of a history fails or loops on the memory, which holds in the end the index of lists. -/
theorem C105_holds {dim : K} {n : Nat} {ops : List (HOp K)} {s : St} (h : Hashed dim n ops s) : ∃ b, memRuns dim ops (BinHeap.new n) = some b ∧ BinRep b s := by
  induction h with
  | nil => exact ⟨_, rfl, binRep_new n⟩
  | snoc h ho e ih =>
    obtain ⟨b, e1, hb⟩ := ih
    obtain ⟨c, e2, hc⟩ := C105_step hb dim _ e
    exact ⟨c, by rw [memRuns_snoc, e1]; exact e2, hc⟩

/-- **C105** After any history following the links from the cells and from the free list ends, meets no bin twice, and meets every bin ever made;
and the bins of a cell hold the handles the index of lists has there. -/
theorem C105_bins {dim : K} {n : Nat} {ops : List (HOp K)} {s : St} (h : Hashed dim n ops s) {b : Mem} (hb : memRuns dim ops (BinHeap.new n) = some b) :
    ∃ (A : Nat → List Nat) (P : List Nat), (∀ i, Chain b.next (b.table i) (A i)) ∧ Chain b.next b.pooled P ∧ (∀ i, (A i).Nodup) ∧ P.Nodup ∧
      (∀ i j, i ≠ j → ∀ a ∈ A i, a ∉ A j) ∧ (∀ i, ∀ a ∈ A i, a ∉ P) ∧ (∀ a, a < b.made ↔ a ∈ P ∨ ∃ i, a ∈ A i) ∧ ∀ i, (A i).map b.handle = (s.table i).map some := by
  obtain ⟨b', e, A, P, val, hl, rfl⟩ := C105_holds h
  rw [hb, Option.some.injEq] at e
  subst e
  refine ⟨A, P, hl.chains, hl.pool, hl.nodup, hl.free, hl.apart, hl.unused, fun a => ⟨fun ha => ?_, fun ha => ?_⟩, fun i => ?_⟩
  · rcases hl.all a ha with h | h | h
    · exact Or.inl h
    · exact Or.inr h
    · cases h
  · rcases ha with ha | ⟨i, ha⟩
    · exact hl.pmade a ha
    · exact hl.made i a ha
  · show _ = ((A i).map val).map some
    rw [List.map_map]
    exact List.map_congr_left fun a ha => hl.vals i a ha

/-- **C105** So a box query on the memory reports what C57 says: each shape once, and exactly the other shapes whose cells meet those of the box. -/
theorem C105_query {dim : K} {n : Nat} (hn : 0 < n) {ops : List (HOp K)} {s : St} (h : Hashed dim n ops s) {b : Mem} (hb : memRuns dim ops (BinHeap.new n) = some b) (obj : Option Nat) (q : BB K) :
    ∃ c o, BinHeap.query b obj (cells dim n q) = some (c, o) ∧ o.Nodup ∧ ∀ x, x ∈ o ↔ some x ≠ obj ∧ ∃ bb, boxes ops x = some bb ∧ meet dim n bb q := by
  obtain ⟨b', e, hr⟩ := C105_holds h
  rw [hb, Option.some.injEq] at e
  subst e
  obtain ⟨t, o, e, h1, h2, _⟩ := C57_query hn h obj q
  rw [(h.ok hn).2.2] at e
  obtain ⟨c, e', _⟩ := binRep_query hr obj _ e
  exact ⟨c, o, e', h1, h2⟩

open Classical in
/-- **C105** The collision query on the memory reports what C57 says: each pair of shapes whose cells meet once, and no other pair. -/
theorem C105_pairs {dim : K} {n : Nat} (hn : 0 < n) {ops : List (HOp K)} {s : St} (h : Hashed dim n ops s) {b : Mem} (hb : memRuns dim ops (BinHeap.new n) = some b)
    (bb : Nat → BB K) (order : List Nat) (ho : order.Perm b.set) :
    ∃ c R, BinHeap.reindexQuery b (fun x => cells dim n (bb x)) order = some (c, R) ∧ (∀ x, (x, x) ∉ R) ∧
      ∀ x y, x ≠ y → R.count (x, y) + R.count (y, x) = if boxes ops x ≠ none ∧ boxes ops y ≠ none ∧ meet dim n (bb x) (bb y) then 1 else 0 := by
  obtain ⟨b', e, hr⟩ := C105_holds h
  rw [hb, Option.some.injEq] at e
  subst e
  have hs : s.set = b.set := by obtain ⟨A, P, val, hl, rfl⟩ := hr; rfl
  obtain ⟨t, R, e, h1, h2, _⟩ := C57_pairs hn h bb order (hs ▸ ho)
  rw [(h.ok hn).2.2] at e
  obtain ⟨c, e', _⟩ := binRep_reindexQuery hr _ order e
  exact ⟨c, R, e', h1, h2⟩

/-- **C105** And a ray cast on the memory reports what C93 says. -/
theorem C105_ray {dim : K} {n : Nat} (hn : 0 < n) (hd : 0 < dim) {inf : K} (hi : 1 ≤ inf) {ops : List (HOp K)} {s : St} (h : Hashed dim n ops s)
    {m : Mem} (hm : memRuns dim ops (BinHeap.new n) = some m) (a b : V2 K)
    (gx : GoodStart dim inf a.x b.x) (gy : GoodStart dim inf a.y b.y) (tExit : K) (ht : tExit ≤ 1) (f : Nat → K) :
    ∃ N, ∀ fuel, N ≤ fuel → ∃ c t o te, BinHeap.segmentQuery dim inf m a b tExit f fuel = some (c, o, te) ∧ BinRep c t ∧ Hash.Ok t ∧ Filed t (filing dim n (boxes ops)) ∧
      o.Nodup ∧ (∀ x ∈ o, boxes ops x ≠ none) ∧ te ≤ tExit ∧ (∀ x ∈ o, te ≤ f x) ∧ (te = tExit ∨ ∃ x ∈ o, te = f x) ∧
      ∀ x bb u, boxes ops x = some bb → 0 ≤ u → u < te → inBox (onSeg a b u) bb → ¬ AtCorner dim a b u → x ∈ o := by
  obtain ⟨m', e, hr⟩ := C105_holds h
  rw [hm, Option.some.injEq] at e
  subst e
  obtain ⟨N, hN⟩ := C93_found_partial hn hd hi h a b gx gy tExit ht f
  refine ⟨N, fun fuel hf => ?_⟩
  obtain ⟨s', o, te, e, h1, h2, _, h3, h4, h5, h6, h7, h8⟩ := hN fuel hf
  obtain ⟨c, e', hc⟩ := binRep_segmentQuery hr dim inf a b tExit f fuel e
  exact ⟨c, s', o, te, e', hc, h1, h2, h3, h4, h5, h6, h7, h8⟩

section examples

theorem hashMem_some : (memRuns (1 : ℚ) hashOps (BinHeap.new 7)).isSome = true := by
  obtain ⟨b, e, _⟩ := C105_holds hashOps_reached; rw [e]; rfl

/-- The history of the examples of C57. Afterwards the removed shape is still in its bin, which a query of that cell gives back; a step of collisions
gives all bins back and takes some again. -/
example : Hashed (1 : ℚ) 7 hashOps hashEnd ∧ ∃ b, memRuns (1 : ℚ) hashOps (BinHeap.new 7) = some b ∧ BinRep b hashEnd ∧ [3, 0].Perm b.set := by
  obtain ⟨b, e, h⟩ := C105_holds hashOps_reached
  refine ⟨hashOps_reached, b, e, h, ?_⟩
  obtain ⟨A, P, val, hl, h⟩ := h
  have : hashEnd.set = b.set := by rw [h]; rfl
  rw [← this]; decide +kernel

/-- A free list of three bins, and a cell in which 7 was removed while 5 stays. -/
def threeFree : Mem := refill 3 (BinHeap.new 7)

example : ((((BinHeap.insert threeFree 5 0 [2]).bind fun b => BinHeap.insert b 7 1 [2, 3]).map fun b => BinHeap.remove b 7).bind fun b => BinHeap.query b none [2]).map
      (fun r => (r.2, r.1.table 2, r.1.table 3, r.1.pooled, r.1.next 1, r.1.made)) = some ([5], some 2, some 0, some 1, none, 3) := by decide +kernel

end examples

end Cm
