import Verif.Model.HashSetHeap
import Verif.Props.HashSet
import Mathlib.Data.List.Nodup
import Mathlib.Tactic.Common
/-! # C94: the bins of the hash set -/
set_option linter.unusedSectionVars false
set_option linter.unusedSimpArgs false
set_option linter.unusedVariables false

namespace Cm
open HashHeap
variable {T U : Type}

namespace Spec
/-- Following the links from `p` one meets exactly the bins of the list, in order, and then nil. -/
def Chain (next : Nat → Option Nat) : Option Nat → List Nat → Prop
  | p, [] => p = none
  | p, a :: l => p = some a ∧ Chain next (next a) l

/-- The bins in the places of the table are those of `A`, the free ones those of `P`; no bin is anywhere twice; `val` tells what is in the bins in use. -/
structure Laid (s : HS U) (A : List (List Nat)) (P : List Nat) (val : Nat → HBin U) : Prop where
  len : A.length = s.size
  chains : ∀ i l, A[i]? = some l → Chain s.next (s.table i) l
  pool : Chain s.next s.pooled P
  nodup : (A.flatten ++ P).Nodup
  made : ∀ a ∈ A.flatten ++ P, a < s.made
  vals : ∀ a ∈ A.flatten, s.elt a = some (val a).elt ∧ s.hash a = (val a).hash

/-- The memory holds the hash set `t`. -/
def Rep (s : HS U) (t : HashSet U) : Prop :=
  0 < s.size ∧ t.size = s.size ∧ t.entries = s.entries ∧ ∃ A P val, Laid s A P val ∧ t.table = A.map (List.map val)
end Spec
open Spec

theorem put_self {α : Type} (f : Nat → α) (a : Nat) (v : α) : put f a v a = v := by simp [put]
theorem put_ne {α : Type} (f : Nat → α) {a x : Nat} (v : α) (h : x ≠ a) : put f a v x = f x := by simp [put, h]

theorem chain_congr {nx nx' : Nat → Option Nat} : ∀ (l : List Nat) (p : Option Nat), (∀ a ∈ l, nx' a = nx a) → Chain nx p l → Chain nx' p l
  | [], _, _, h => h
  | a :: l, p, he, h => ⟨h.1, by rw [he a (by simp)]; exact chain_congr l _ (fun b hb => he b (by simp [hb])) h.2⟩

theorem length_le_of_nodup {l : List Nat} {n : Nat} (h : l.Nodup) (hb : ∀ a ∈ l, a < n) : l.length ≤ n := by
  have : l ⊆ List.range n := fun a ha => List.mem_range.2 (hb a ha)
  have := (List.subperm_of_subset h this).length_le
  simpa using this

theorem flatten_set_perm {α : Type} : ∀ (A : List (List α)) (i : Nat) (c c' : List α) (a : α), A[i]? = some c → c.Perm (a :: c') →
    A.flatten.Perm (a :: (A.set i c').flatten)
  | [], _, _, _, _, h, _ => by simp at h
  | d :: A, 0, c, c', a, h, hp => by
    simp only [List.getElem?_cons_zero, Option.some.injEq] at h
    subst h
    simpa using hp.append_right A.flatten
  | d :: A, i + 1, c, c', a, h, hp => by
    simp only [List.getElem?_cons_succ] at h
    have := flatten_set_perm A i c c' a h hp
    simp only [List.set_cons_succ, List.flatten_cons]
    exact (this.append_left d).trans List.perm_middle

theorem flatten_push_perm {α : Type} : ∀ (A : List (List α)) (i : Nat) (a : α), i < A.length → (A.modify i (a :: ·)).flatten.Perm (a :: A.flatten)
  | [], _, _, h => by simp at h
  | d :: A, 0, a, _ => by simp
  | d :: A, i + 1, a, h => by
    have := flatten_push_perm A i a (by simpa using h)
    simp only [List.modify_succ_cons, List.flatten_cons]
    exact (this.append_left d).trans List.perm_middle

theorem disjoint_places {α : Type} {A : List (List α)} (h : A.flatten.Nodup) {i j : Nat} {c d : List α} (hc : A[i]? = some c) (hd : A[j]? = some d) (hij : i ≠ j) :
    ∀ x ∈ c, x ∉ d := by
  rw [List.nodup_flatten] at h
  have hp := h.2
  have hi : i < A.length := by by_contra hh; rw [List.getElem?_eq_none (by omega)] at hc; cases hc
  have hj : j < A.length := by by_contra hh; rw [List.getElem?_eq_none (by omega)] at hd; cases hd
  rw [List.getElem?_eq_getElem hi, Option.some.injEq] at hc
  rw [List.getElem?_eq_getElem hj, Option.some.injEq] at hd
  subst hc; subst hd
  intro x hx hx'
  rw [List.pairwise_iff_getElem] at hp
  rcases Nat.lt_or_gt_of_ne hij with hlt | hlt
  · exact hp i j hi hj hlt hx hx'
  · exact hp j i hj hi hlt hx' hx

theorem mem_place {α : Type} {A : List (List α)} {i : Nat} {c : List α} (h : A[i]? = some c) {x : α} (hx : x ∈ c) : x ∈ A.flatten :=
  List.mem_flatten.2 ⟨c, List.mem_of_getElem? h, hx⟩

/-! ### Making and recycling bins -/

theorem laid_refill (A : List (List Nat)) (val : Nat → HBin U) : ∀ (n : Nat) (s : HS U) (P : List Nat), Laid s A P val →
    ∃ P', Laid (refill n s) A P' val ∧ (refill n s).size = s.size ∧ (refill n s).entries = s.entries ∧ (refill n s).table = s.table
  | 0, s, P, h => ⟨P, h, rfl, rfl, rfl⟩
  | n + 1, s, P, h => by
    have hlt : ∀ a ∈ A.flatten ++ P, a ≠ s.made := fun a ha e => by have := h.made a ha; omega
    have : Laid (recycle (alloc s) s.made) A (s.made :: P) val := by
      refine ⟨h.len, fun i l hl => ?_, ⟨rfl, ?_⟩, ?_, ?_, fun a ha => ?_⟩
      · refine chain_congr l _ (fun a ha => ?_) (h.chains i l hl)
        have hne := hlt a (by simp only [List.mem_append]; exact Or.inl (mem_place hl ha))
        simp [recycle, alloc, put, hne]
      · have e : (recycle (alloc s) s.made).next s.made = s.pooled := by simp [recycle, alloc, put]
        rw [e]
        refine chain_congr P _ (fun a ha => ?_) h.pool
        have hne := hlt a (by simp only [List.mem_append]; exact Or.inr ha)
        simp [recycle, alloc, put, hne]
      · refine (List.Perm.nodup_iff List.perm_middle).2 (List.nodup_cons.2 ⟨fun hc => hlt _ hc rfl, h.nodup⟩)
      · intro a ha
        show a < s.made + 1
        rcases List.mem_cons.1 (List.perm_middle.mem_iff.1 ha) with rfl | ha
        · omega
        · have := h.made a ha; omega
      · have hne := hlt a (by simp only [List.mem_append]; exact Or.inl ha)
        obtain ⟨v1, v2⟩ := h.vals a ha
        simp only [recycle, alloc, put, hne, if_false]
        exact ⟨v1, v2⟩
    obtain ⟨P', h1, h2, h3, h4⟩ := laid_refill A val n _ _ this
    exact ⟨P', h1, h2, h3, h4⟩

theorem laid_getUnused {s : HS U} {A : List (List Nat)} {P : List Nat} {val : Nat → HBin U} (h : Laid s A P val) :
    ∃ P', Laid (getUnusedBin s).1 A P' val ∧ (getUnusedBin s).2 ∉ A.flatten ++ P' ∧ (getUnusedBin s).2 < (getUnusedBin s).1.made ∧
      (getUnusedBin s).1.size = s.size ∧ (getUnusedBin s).1.entries = s.entries ∧ (getUnusedBin s).1.table = s.table := by
  cases hp : s.pooled with
  | some a =>
    have eg : getUnusedBin s = ({ s with pooled := s.next a }, a) := by simp only [getUnusedBin, hp]
    rw [eg]
    simp only
    cases P with
    | nil => have := h.pool; rw [hp] at this; simp [Chain] at this
    | cons b P =>
      have hc := h.pool
      rw [hp] at hc
      obtain ⟨e, hc⟩ := hc
      rw [Option.some.injEq] at e
      subst e
      have hnd := (List.Perm.nodup_iff List.perm_middle).1 h.nodup
      rw [List.nodup_cons] at hnd
      refine ⟨P, ⟨h.len, h.chains, hc, hnd.2, fun x hx => h.made x ?_, h.vals⟩, hnd.1, h.made a (by simp), trivial, trivial, trivial⟩
      rcases List.mem_append.1 hx with hx | hx <;> simp [hx]
  | none =>
    have eg : getUnusedBin s = (alloc (refill pooledBufferSize s), (refill pooledBufferSize s).made) := by simp only [getUnusedBin, hp]
    rw [eg]
    simp only
    obtain ⟨P', h1, h2, h3, h4⟩ := laid_refill A val pooledBufferSize s P h
    generalize refill pooledBufferSize s = r at h1 h2 h3 h4
    have hlt : ∀ a ∈ A.flatten ++ P', a ≠ r.made := fun a ha e => by have := h1.made a ha; omega
    refine ⟨P', ⟨h1.len, fun i l hl => ?_, ?_, h1.nodup, fun a ha => ?_, fun a ha => ?_⟩, fun hc => hlt _ hc rfl, ?_, h2, h3, h4⟩
    · refine chain_congr l _ (fun a ha => ?_) (h1.chains i l hl)
      exact put_ne _ _ (hlt a (List.mem_append_left _ (mem_place hl ha)))
    · refine chain_congr P' _ (fun a ha => ?_) h1.pool
      exact put_ne _ _ (hlt a (List.mem_append_right _ ha))
    · show a < r.made + 1
      have := h1.made a ha; omega
    · have hne := hlt a (List.mem_append_left _ ha)
      obtain ⟨v1, v2⟩ := h1.vals a ha
      simp only [alloc, put, hne, if_false]
      exact ⟨v1, v2⟩
    · show r.made < r.made + 1; omega

/-! ### Putting a bin at the front of a place -/

theorem chains_push {nx tb : Nat → Option Nat} {A : List (List Nat)} (h : ∀ i l, A[i]? = some l → Chain nx (tb i) l) {a k : Nat} (ha : a ∉ A.flatten) :
    ∀ i l, (A.modify k (a :: ·))[i]? = some l → Chain (put nx a (tb k)) (put tb k (some a) i) l := by
  intro i l hl
  rw [List.getElem?_modify] at hl
  have other : ∀ j m, A[j]? = some m → Chain (put nx a (tb k)) (tb j) m := fun j m hm =>
    chain_congr m _ (fun b hb => put_ne _ _ (fun e => ha (by rw [← e]; exact mem_place hm hb))) (h j m hm)
  by_cases hk : k = i
  · subst hk
    simp only [if_true] at hl
    rcases hA : A[k]? with _ | m
    · rw [hA] at hl; simp at hl
    · rw [hA] at hl
      simp only [Option.map_eq_map, Option.map_some, Option.some.injEq] at hl
      subst hl
      refine ⟨put_self _ _ _, ?_⟩
      rw [put_self]
      exact other k m hA
  · simp only [if_neg hk] at hl
    rw [put_ne _ _ (Ne.symm hk)]
    rcases hA : A[i]? with _ | m
    · rw [hA] at hl; simp at hl
    · rw [hA] at hl
      simp at hl
      subst hl
      exact other i m hA

theorem map_val_congr {A : List (List Nat)} {val val' : Nat → HBin U} (h : ∀ a ∈ A.flatten, val' a = val a) : A.map (List.map val') = A.map (List.map val) :=
  List.map_congr_left fun l hl => List.map_congr_left fun a ha => h a (List.mem_flatten.2 ⟨l, hl, ha⟩)

theorem map_modify_push (A : List (List Nat)) (val : Nat → HBin U) (k a : Nat) :
    (A.modify k (a :: ·)).map (List.map val) = (A.map (List.map val)).modify k (val a :: ·) := by
  apply List.ext_getElem?
  intro i
  simp only [List.getElem?_map, List.getElem?_modify]
  by_cases hk : k = i
  · subst hk; cases A[k]? <;> simp
  · simp [hk]

/-! ### Growing -/

theorem moveChain_ok (hash : Nat → Nat) (n : Nat) : ∀ (fuel : Nat) (l : List Nat) (p : Option Nat) (nx tb : Nat → Option Nat) (B : List (List Nat)),
    l.length < fuel → l.Nodup → Chain nx p l → B.length = n → 0 < n → (∀ i m, B[i]? = some m → Chain nx (tb i) m) → (∀ a ∈ l, a ∉ B.flatten) →
    ∃ nx' tb', moveChain hash n fuel p (nx, tb) = some (nx', tb') ∧ (∀ a, a ∉ l → a ∉ B.flatten → nx' a = nx a) ∧
      (∀ i m, (l.foldl (fun B a => B.modify (hash a % n) (a :: ·)) B)[i]? = some m → Chain nx' (tb' i) m) := by
  intro fuel
  induction fuel with
  | zero => intro l _ _ _ _ h; omega
  | succ fuel ih =>
    intro l p nx tb B hf hnd hc hB hn hch hdis
    cases l with
    | nil =>
      have : p = none := hc
      subst this
      exact ⟨nx, tb, rfl, fun _ _ _ => rfl, hch⟩
    | cons a l =>
      obtain ⟨rfl, hc⟩ := hc
      rw [List.nodup_cons] at hnd
      rw [moveChain]
      have haB := hdis a (by simp)
      have hp := flatten_push_perm B (hash a % n) a (by rw [hB]; exact Nat.mod_lt _ hn)
      obtain ⟨nx', tb', e, h1, h2⟩ := ih l (nx a) (put nx a (tb (hash a % n))) (put tb (hash a % n) (some a)) (B.modify (hash a % n) (a :: ·))
        (by simp at hf; omega) hnd.2 (chain_congr l _ (fun b hb => put_ne _ _ (fun e => hnd.1 (e ▸ hb))) hc) (by simp [hB]) hn (chains_push hch haB)
        (fun b hb hc => by
          rcases List.mem_cons.1 (hp.mem_iff.1 hc) with rfl | hc
          · exact hnd.1 hb
          · exact hdis b (by simp [hb]) hc)
      refine ⟨nx', tb', e, fun b hb hb' => ?_, h2⟩
      simp only [List.mem_cons, not_or] at hb
      rw [h1 b hb.2 (fun hc => by
        rcases List.mem_cons.1 (hp.mem_iff.1 hc) with h | h
        · exact hb.1 h
        · exact hb' h)]
      exact put_ne _ _ hb.1

theorem foldl_push_length (n : Nat) (hash : Nat → Nat) : ∀ (l : List Nat) (B : List (List Nat)),
    (l.foldl (fun B a => B.modify (hash a % n) (a :: ·)) B).length = B.length
  | [], _ => rfl
  | a :: l, B => by rw [List.foldl_cons, foldl_push_length]; simp

theorem foldl_push_perm (n : Nat) (hn : 0 < n) (hash : Nat → Nat) : ∀ (l : List Nat) (B : List (List Nat)), B.length = n →
    (l.foldl (fun B a => B.modify (hash a % n) (a :: ·)) B).flatten.Perm (l ++ B.flatten)
  | [], _, _ => List.Perm.refl _
  | a :: l, B, h => by
    rw [List.foldl_cons]
    refine (foldl_push_perm n hn hash l _ (by simpa using h)).trans ?_
    refine ((flatten_push_perm B (hash a % n) a (by rw [h]; exact Nat.mod_lt _ hn)).append_left l).trans List.perm_middle

theorem moveAll_ok (s : HS U) (n : Nat) (hn : 0 < n) : ∀ (R : List (List Nat)) (i : Nat) (nx tb : Nat → Option Nat) (B : List (List Nat)),
    (∀ j l, R[j]? = some l → Chain nx (s.table (i + j)) l) → R.flatten.Nodup → (∀ a ∈ R.flatten, a < s.made) → B.length = n →
    (∀ i m, B[i]? = some m → Chain nx (tb i) m) → (∀ a ∈ R.flatten, a ∉ B.flatten) →
    ∃ nx' tb', moveAll s n R.length i (nx, tb) = some (nx', tb') ∧ (∀ a, a ∉ R.flatten → a ∉ B.flatten → nx' a = nx a) ∧
      (∀ i m, (R.flatten.foldl (fun B a => B.modify (s.hash a % n) (a :: ·)) B)[i]? = some m → Chain nx' (tb' i) m) := by
  intro R
  induction R with
  | nil => intro i nx tb B _ _ _ _ hB _; exact ⟨nx, tb, rfl, fun _ _ _ => rfl, hB⟩
  | cons c R ih =>
    intro i nx tb B hR hnd hlt hBl hB hdis
    rw [List.flatten_cons] at hnd hlt hdis
    obtain ⟨n1, n2, n3⟩ := List.nodup_append.1 hnd
    have hn3 : ∀ a ∈ R.flatten, a ∉ c := fun a ha hc => n3 a hc a ha rfl
    have hlen : c.length < s.made + 1 := Nat.lt_succ_of_le (length_le_of_nodup n1 fun a ha => hlt a (List.mem_append_left _ ha))
    obtain ⟨nx1, tb1, e1, f1, g1⟩ := moveChain_ok s.hash n (s.made + 1) c (s.table i) nx tb B hlen n1 (hR 0 c rfl) hBl hn hB
      (fun a ha => hdis a (List.mem_append_left _ ha))
    have hp := foldl_push_perm n hn s.hash c B hBl
    have hnot : ∀ a, a ∉ c → a ∉ B.flatten → a ∉ (c.foldl (fun B a => B.modify (s.hash a % n) (a :: ·)) B).flatten := fun a h1 h2 h3 => by
      rcases List.mem_append.1 (hp.mem_iff.1 h3) with h | h
      · exact h1 h
      · exact h2 h
    have hout : ∀ a ∈ R.flatten, a ∉ B.flatten := fun a ha => hdis a (List.mem_append_right _ ha)
    obtain ⟨nx2, tb2, e2, f2, g2⟩ := ih (i + 1) nx1 tb1 _ (fun j l hl => by
        refine chain_congr l _ (fun a ha => ?_) (by have := hR (j + 1) l hl; rwa [show i + (j + 1) = i + 1 + j by omega] at this)
        have hm := mem_place hl ha
        exact f1 a (hn3 a hm) (hout a hm)) n2 (fun a ha => hlt a (List.mem_append_right _ ha)) ((foldl_push_length _ _ _ _).trans hBl) g1
      (fun a ha => hnot a (hn3 a ha) (hout a ha))
    refine ⟨nx2, tb2, ?_, fun a ha hb => ?_, ?_⟩
    · rw [List.length_cons, moveAll, e1]
      exact e2
    · rw [List.flatten_cons, List.mem_append, not_or] at ha
      rw [f2 a ha.2 (hnot a ha.1 hb), f1 a ha.1 hb]
    · rw [List.flatten_cons, List.foldl_append]
      exact g2

theorem foldl_push_val {A : List (List Nat)} (hash : Nat → Nat) (val : Nat → HBin U) (n : Nat) : ∀ (l : List Nat) (B : List (List Nat)), (∀ a ∈ l, hash a = (val a).hash) →
    (l.foldl (fun B a => B.modify (hash a % n) (a :: ·)) B).map (List.map val) = (l.map val).foldl (HashSet.pushBin n) (B.map (List.map val))
  | [], _, _ => rfl
  | a :: l, B, h => by
    rw [List.foldl_cons, List.map_cons, List.foldl_cons, foldl_push_val (A := A) hash val n l _ (fun b hb => h b (by simp [hb])), map_modify_push]
    rw [HashSet.pushBin, h a (by simp)]

theorem resize_sim {s : HS U} {t : HashSet U} (h : Rep s t) :
    (t.resize = none → resize s = none) ∧ ∀ t', t.resize = some t' → ∃ s', resize s = some s' ∧ Rep s' t' := by
  obtain ⟨hs, h1, h2, A, P, val, hl, ht⟩ := h
  unfold HashSet.resize resize
  rw [h1]
  cases hn : HashSet.nextPrime (s.size + 1) with
  | none => simp
  | some n =>
    have hge := HashSet.nextPrime_ge hn
    have hn0 : 0 < n := by omega
    obtain ⟨n1, n2, n3⟩ := List.nodup_append.1 hl.nodup
    obtain ⟨nx, tb, e, f, g⟩ := moveAll_ok s n hn0 A 0 s.next (fun _ => none) (List.replicate n []) (fun j l hj => by simpa using hl.chains j l hj) n1
      (fun a ha => hl.made a (List.mem_append_left _ ha)) (by simp) (fun i m hm => by
        rw [List.getElem?_replicate] at hm; split at hm
        · rw [Option.some.injEq] at hm; subst hm; rfl
        · cases hm) (by simp)
    have hp := foldl_push_perm n hn0 s.hash A.flatten (List.replicate n []) (by simp)
    rw [show (List.replicate n ([] : List Nat)).flatten = [] by simp, List.append_nil] at hp
    rw [hl.len] at e
    simp only [e]
    refine ⟨by simp, fun t' ht' => ⟨_, rfl, ?_⟩⟩
    rw [Option.some.injEq] at ht'
    subst ht'
    refine ⟨hn0, rfl, h2, _, P, val, ⟨?_, g, ?_, ?_, ?_, ?_⟩, ?_⟩
    · rw [foldl_push_length]; simp
    · exact chain_congr P _ (fun a ha => f a (fun hc => n3 a hc a ha rfl) (by simp)) hl.pool
    · exact (hp.append_right P).nodup_iff.2 hl.nodup
    · exact fun a ha => hl.made a ((hp.append_right P).mem_iff.1 ha)
    · exact fun a ha => hl.vals a (hp.mem_iff.1 ha)
    · rw [foldl_push_val (A := A) s.hash val n A.flatten _ (fun a ha => (hl.vals a ha).2), ht]
      simp only [List.map_flatten, List.map_replicate, List.map_nil]

/-! ### Taking a bin out -/

theorem chain_head {nx : Nat → Option Nat} {p : Option Nat} {l : List Nat} (h : Chain nx p l) : p = l.head? := by
  cases l with
  | nil => exact h
  | cons a l => exact h.1

theorem chain_after {nx : Nat → Option Nat} : ∀ (K : List Nat) {a : Nat} {l : List Nat} {p : Option Nat}, Chain nx p (K ++ a :: l) → Chain nx (nx a) l
  | [], _, _, _, h => h.2
  | _ :: K, _, _, _, h => chain_after K h.2

theorem chain_splice {nx : Nat → Option Nat} : ∀ (K : List Nat) {q a : Nat} {l : List Nat} {p : Option Nat}, Chain nx p (K ++ q :: a :: l) → (K ++ q :: a :: l).Nodup →
    Chain (put nx q (nx a)) p (K ++ q :: l)
  | [], q, a, l, p, h, hd => by
    refine ⟨h.1, ?_⟩
    rw [put_self]
    refine chain_congr l _ (fun b hb => put_ne _ _ (fun e => ?_)) h.2.2
    subst e
    simp [hb] at hd
  | k :: K, q, a, l, p, h, hd => by
    rw [List.cons_append, List.nodup_cons] at hd
    refine ⟨h.1, ?_⟩
    rw [put_ne _ _ (fun e => hd.1 (by simp [e]))]
    exact chain_splice K h.2 hd.2

theorem laid_unlink {s : HS U} {A : List (List Nat)} {P : List Nat} {val : Nat → HBin U} (h : Laid s A P val) {i : Nat} {K : List Nat} {a : Nat} {l : List Nat}
    (hi : A[i]? = some (K ++ a :: l)) (e : Nat) :
    Laid (recycle { setPrev s i K.getLast? (s.next a) with entries := e } a) (A.set i (K ++ l)) (a :: P) val ∧
    (recycle { setPrev s i K.getLast? (s.next a) with entries := e } a).size = s.size ∧
    (recycle { setPrev s i K.getLast? (s.next a) with entries := e } a).made = s.made ∧
    (recycle { setPrev s i K.getLast? (s.next a) with entries := e } a).entries = e ∧
    (setPrev s i K.getLast? (s.next a)).entries = s.entries ∧ (setPrev s i K.getLast? (s.next a)).elt = s.elt := by
  obtain ⟨n1, n2, n3⟩ := List.nodup_append.1 h.nodup
  have hnc : (K ++ a :: l).Nodup := (List.nodup_flatten.1 n1).1 _ (List.mem_of_getElem? hi)
  have hperm := flatten_set_perm A i _ (K ++ l) a hi List.perm_middle
  have hilt : i < A.length := by by_contra hh; rw [List.getElem?_eq_none (by omega)] at hi; cases hi
  have haA : a ∈ A.flatten := mem_place hi (by simp)
  have hne : a ∉ (A.set i (K ++ l)).flatten := (List.nodup_cons.1 (hperm.nodup_iff.1 n1)).1
  have haP : a ∉ P := fun hc => n3 a haA a hc rfl
  -- the state after the link before `a` is changed
  obtain ⟨s1, hs1⟩ : ∃ s1, s1 = setPrev s i K.getLast? (s.next a) := ⟨_, rfl⟩
  have key : s1.size = s.size ∧ s1.made = s.made ∧ s1.entries = s.entries ∧ s1.elt = s.elt ∧ s1.hash = s.hash ∧ s1.pooled = s.pooled ∧
      Chain s1.next (s1.table i) (K ++ l) ∧ (∀ j, j ≠ i → s1.table j = s.table j) ∧ (∀ b, b ∉ K → s1.next b = s.next b) := by
    have hc := h.chains i _ hi
    rcases K.eq_nil_or_concat with rfl | ⟨K', q, rfl⟩
    · rw [hs1]
      refine ⟨rfl, rfl, rfl, rfl, rfl, rfl, ?_, fun j hj => put_ne _ _ hj, fun _ _ => rfl⟩
      show Chain s.next (put s.table i (s.next a) i) l
      rw [put_self]
      exact hc.2
    · rw [List.concat_eq_append] at *
      rw [hs1, List.getLast?_append]
      refine ⟨rfl, rfl, rfl, rfl, rfl, rfl, ?_, fun j hj => rfl, fun b hb => put_ne _ _ (fun e => hb (by simp [e]))⟩
      rw [List.append_assoc] at hc hnc ⊢
      exact chain_splice K' hc hnc
  rw [← hs1]
  obtain ⟨k1, k2, k3, k4, k5, k6, k7, k8, k9⟩ := key
  refine ⟨⟨?_, fun j m hm => ?_, ⟨rfl, ?_⟩, ?_, ?_, ?_⟩, k1, k2, rfl, k3, k4⟩
  · simpa [recycle, k1] using h.len
  · have ham : a ∉ m := fun hc => hne (mem_place hm hc)
    refine chain_congr (nx := s1.next) m _ (fun b hb => put_ne _ _ (fun e => ham (e ▸ hb))) ?_
    show Chain s1.next (s1.table j) m
    by_cases hj : i = j
    · subst hj
      rw [List.getElem?_set_self hilt, Option.some.injEq] at hm
      subst hm
      exact k7
    · rw [List.getElem?_set_ne hj] at hm
      rw [k8 j (Ne.symm hj)]
      refine chain_congr m _ (fun b hb => k9 b (fun hc => ?_)) (h.chains j m hm)
      exact disjoint_places n1 hi hm hj b (by simp [hc]) hb
  · show Chain (put s1.next a s1.pooled) (put s1.next a s1.pooled a) P
    rw [put_self, k6]
    refine chain_congr P _ (fun b hb => ?_) h.pool
    rw [put_ne _ _ (show b ≠ a from fun e => haP (e ▸ hb)), k9 b (fun hc => n3 b (mem_place hi (by simp [hc])) b hb rfl)]
  · have : ((A.set i (K ++ l)).flatten ++ a :: P).Perm (A.flatten ++ P) := List.perm_middle.trans (hperm.symm.append_right P)
    exact this.nodup_iff.2 h.nodup
  · intro b hb
    have : ((A.set i (K ++ l)).flatten ++ a :: P).Perm (A.flatten ++ P) := List.perm_middle.trans (hperm.symm.append_right P)
    show b < s1.made
    rw [k2]
    exact h.made b (this.mem_iff.1 hb)
  · intro b hb
    have hba : b ≠ a := fun e => hne (e ▸ hb)
    show put s1.elt a none b = _ ∧ s1.hash b = _
    rw [put_ne _ _ hba, k4, k5]
    exact h.vals b (hperm.symm.subset (List.mem_cons_of_mem _ hb))

/-! ### Walking along a chain -/

theorem place_length {s : HS U} {A : List (List Nat)} {P : List Nat} {val : Nat → HBin U} (h : Laid s A P val) {i : Nat} {c : List Nat} (hi : A[i]? = some c) :
    c.length < s.made + 1 :=
  Nat.lt_succ_of_le (length_le_of_nodup ((List.nodup_flatten.1 (List.nodup_append.1 h.nodup).1).1 _ (List.mem_of_getElem? hi))
    fun a ha => h.made a (List.mem_append_left _ (mem_place hi ha)))

theorem search_ok {s : HS U} {A : List (List Nat)} {P : List Nat} {val : Nat → HBin U} (h : Laid s A P val) {i : Nat} {c : List Nat} (hi : A[i]? = some c) (eq : U → Bool) :
    ∀ (fuel : Nat) (K l : List Nat), c = K ++ l → l.length < fuel → (∀ x ∈ K, eq (val x).elt = false) →
    ((∀ x ∈ c, eq (val x).elt = false) ∧ ∃ q, search eq s fuel l.head? K.getLast? = some (none, q)) ∨
    (∃ K' a l', c = K' ++ a :: l' ∧ (∀ x ∈ K', eq (val x).elt = false) ∧ eq (val a).elt = true ∧
      search eq s fuel l.head? K.getLast? = some (some a, K'.getLast?)) := by
  intro fuel
  induction fuel with
  | zero => intro K l _ hf; omega
  | succ fuel ih =>
    intro K l hc hf hK
    cases l with
    | nil =>
      left
      rw [List.append_nil] at hc
      subst hc
      exact ⟨hK, _, rfl⟩
    | cons a l =>
      have ha : a ∈ c := by simp [hc]
      have hch := h.chains i c hi
      rw [hc] at hch
      have hnx := chain_head (chain_after K hch)
      have hv := (h.vals a (mem_place hi ha)).1
      simp only [List.head?_cons, search, hv]
      by_cases he : eq (val a).elt = true
      · right
        exact ⟨K, a, l, hc, hK, he, by rw [if_pos he]⟩
      · rw [if_neg he, hnx]
        have := ih (K ++ [a]) l (by simp [hc]) (by simp at hf; omega) (fun x hx => by
          rcases List.mem_append.1 hx with hx | hx
          · exact hK x hx
          · rw [List.mem_singleton.1 hx]; simpa using he)
        rwa [show (K ++ [a]).getLast? = some a by simp] at this

theorem eachChain_ok {s : HS U} {A : List (List Nat)} {P : List Nat} {val : Nat → HBin U} (h : Laid s A P val) {i : Nat} {c : List Nat} (hi : A[i]? = some c) :
    ∀ (fuel : Nat) (l : List Nat) (p : Option Nat), (∀ x ∈ l, x ∈ c) → Chain s.next p l → l.length < fuel → eachChain s fuel p = some (l.map fun a => (val a).elt) := by
  intro fuel
  induction fuel with
  | zero => intro l _ _ _ hf; omega
  | succ fuel ih =>
    intro l p hm hc hf
    cases l with
    | nil => have : p = none := hc; subst this; rfl
    | cons a l =>
      obtain ⟨rfl, hc⟩ := hc
      have hv := (h.vals a (mem_place hi (hm a (by simp)))).1
      simp only [eachChain, hv]
      rw [ih l (s.next a) (fun x hx => hm x (by simp [hx])) hc (by simp at hf; omega)]
      rfl

theorem eachAll_ok {s : HS U} {A : List (List Nat)} {P : List Nat} {val : Nat → HBin U} (h : Laid s A P val) : ∀ (R D : List (List Nat)), A = D ++ R →
    eachAll s R.length D.length = some (R.flatten.map fun a => (val a).elt)
  | [], _, _ => rfl
  | c :: R, D, hA => by
    have hi : A[D.length]? = some c := by simp [hA]
    rw [List.length_cons, eachAll, eachChain_ok h hi _ c _ (fun _ hx => hx) (h.chains _ _ hi) (place_length h hi)]
    have := eachAll_ok h R (D ++ [c]) (by simp [hA])
    rw [List.length_append] at this
    simp only [List.length_singleton] at this
    simp only [this, Option.map_some, List.flatten_cons, List.map_append]

theorem set_same {α : Type} {A : List α} {i : Nat} {c : α} (h : A[i]? = some c) : A.set i c = A := by
  apply List.ext_getElem?
  intro j
  by_cases hj : i = j
  · subst hj
    have : i < A.length := by by_contra hh; rw [List.getElem?_eq_none (by omega)] at h; cases h
    rw [List.getElem?_set_self this, h]
  · rw [List.getElem?_set_ne hj]

theorem filterChain_ok (f : U → Bool) (i : Nat) (val : Nat → HBin U) : ∀ (fuel : Nat) (l K : List Nat) (s : HS U) (A : List (List Nat)) (P : List Nat), Laid s A P val → A[i]? = some (K ++ l) →
    l.length < fuel → ∃ s' P', filterChain f i fuel l.head? K.getLast? s = some s' ∧ Laid s' (A.set i (K ++ l.filter fun a => f (val a).elt)) P' val ∧ s'.size = s.size ∧
      s'.entries = s.entries - (l.length - (l.filter fun a => f (val a).elt).length) := by
  intro fuel
  induction fuel with
  | zero => intro l _ _ _ _ _ _ hf; omega
  | succ fuel ih =>
    intro l K s A P h hi hf
    cases l with
    | nil =>
      refine ⟨s, P, rfl, ?_, rfl, by simp⟩
      rw [List.filter_nil, set_same hi]
      exact h
    | cons a l =>
      have hv := (h.vals a (mem_place hi (by simp))).1
      have hnx := chain_head (chain_after K (h.chains i _ hi))
      have hle := List.length_filter_le (fun a => f (val a).elt) l
      simp only [List.head?_cons, filterChain, hv]
      by_cases he : f (val a).elt = true
      · rw [if_pos he, hnx]
        obtain ⟨s', P', e, hl, h1, h2⟩ := ih l (K ++ [a]) s A P h (by simpa using hi) (by simp at hf; omega)
        rw [show (K ++ [a]).getLast? = some a by simp] at e
        refine ⟨s', P', e, ?_, h1, ?_⟩
        · rw [List.filter_cons_of_pos (by simpa using he)]
          simpa using hl
        · rw [h2, List.filter_cons_of_pos (by simpa using he), List.length_cons, List.length_cons]
          congr 1; omega
      · rw [if_neg he]
        obtain ⟨u1, u2, u3, u4, u5, u6⟩ := laid_unlink h hi ((setPrev s i K.getLast? (s.next a)).entries - 1)
        have hilt : i < A.length := by by_contra hh; rw [List.getElem?_eq_none (by omega)] at hi; cases hi
        obtain ⟨s', P', e, hl, h1, h2⟩ := ih l K _ _ _ u1 (List.getElem?_set_self hilt) (by simp at hf; omega)
        rw [← hnx] at e
        refine ⟨s', P', e, ?_, h1.trans u2, ?_⟩
        · rw [List.filter_cons_of_neg (by simpa using he)]
          rwa [List.set_set] at hl
        · rw [h2, u4, u5, List.filter_cons_of_neg (by simpa using he), List.length_cons]
          omega

theorem filterAll_ok (f : U → Bool) (val : Nat → HBin U) : ∀ (R D : List (List Nat)) (s : HS U) (P : List Nat), Laid s (D ++ R) P val →
    ∃ s' P', filterAll f R.length D.length s = some s' ∧ Laid s' (D ++ R.map (List.filter fun a => f (val a).elt)) P' val ∧ s'.size = s.size ∧
      s'.entries = s.entries - (R.flatten.length - (R.flatten.filter fun a => f (val a).elt).length)
  | [], D, s, P, h => ⟨s, P, rfl, by simpa using h, rfl, by simp⟩
  | c :: R, D, s, P, h => by
    have hi : (D ++ c :: R)[D.length]? = some ([] ++ c) := by simp
    obtain ⟨s1, P1, e1, h1, a1, b1⟩ := filterChain_ok f D.length val (s.made + 1) c [] s _ P h hi (place_length h hi)
    have hset : (D ++ c :: R).set D.length ([] ++ c.filter fun a => f (val a).elt) = (D ++ [c.filter fun a => f (val a).elt]) ++ R := by simp
    rw [hset] at h1
    obtain ⟨s2, P2, e2, h2, a2, b2⟩ := filterAll_ok f val R _ s1 P1 h1
    refine ⟨s2, P2, ?_, by simpa using h2, a2.trans a1, ?_⟩
    · rw [List.length_cons, filterAll, chain_head (h.chains _ _ hi)]
      simp only [List.nil_append] at e1 ⊢
      rw [show ([] : List Nat).getLast? = none from rfl] at e1
      rw [e1]
      simpa using e2
    · rw [b2, b1, List.flatten_cons, List.length_append, List.filter_append, List.length_append]
      have g1 := List.length_filter_le (fun a => f (val a).elt) c
      have g2 := List.length_filter_le (fun a => f (val a).elt) R.flatten
      omega

/-! ### One call -/

theorem find_map_none {val : Nat → HBin U} {c : List Nat} {eq : U → Bool} (h : ∀ x ∈ c, eq (val x).elt = false) :
    (c.map val).find? (fun b => eq b.elt) = none := by
  rw [List.find?_eq_none]
  intro b hb
  obtain ⟨x, hx, rfl⟩ := List.mem_map.1 hb
  simp [h x hx]

theorem find_map_some {val : Nat → HBin U} {K l : List Nat} {a : Nat} {eq : U → Bool} (h : ∀ x ∈ K, eq (val x).elt = false) (ha : eq (val a).elt = true) :
    ((K ++ a :: l).map val).find? (fun b => eq b.elt) = some (val a) ∧ ((K ++ a :: l).map val).eraseP (fun b => eq b.elt) = (K ++ l).map val := by
  induction K with
  | nil => simp [ha]
  | cons k K ih =>
    have hk := h k (by simp)
    obtain ⟨i1, i2⟩ := ih (fun x hx => h x (by simp [hx]))
    rw [List.cons_append, List.map_cons]
    constructor
    · rw [List.find?_cons_of_neg (by simp [hk])]; exact i1
    · rw [List.eraseP_cons_of_neg (by simp [hk]), i2]; simp

theorem step_sim (isEqual : T → U → Bool) (h : T → Nat) {s : HS U} {t : HashSet U} (hr : Rep s t) (op : HashSet.Op T U) :
    (HashSet.step isEqual h t op = none → step isEqual h s op = none) ∧
    ∀ t' o, HashSet.step isEqual h t op = some (t', o) → ∃ s', step isEqual h s op = some (s', o) ∧ Rep s' t' := by
  obtain ⟨hs, h1, h2, A, P, val, hl, ht⟩ := id hr
  have look : ∀ p : T, ∃ c, A[h p % s.size]? = some c ∧ t.chain? (h p) = some (c.map val) ∧ t.table[h p % s.size]? = some (c.map val) := fun p => by
    have hlt : h p % s.size < A.length := by rw [hl.len]; exact Nat.mod_lt _ hs
    have : t.table[h p % s.size]? = some (A[h p % s.size].map val) := by rw [ht, List.getElem?_map, List.getElem?_eq_getElem hlt]; rfl
    exact ⟨A[h p % s.size], List.getElem?_eq_getElem hlt, by rw [HashSet.chain?, h1, this], this⟩
  have srch : ∀ (p : T) (c : List Nat), A[h p % s.size]? = some c →
      ((∀ x ∈ c, isEqual p (val x).elt = false) ∧ ∃ q, search (isEqual p) s (s.made + 1) (s.table (h p % s.size)) none = some (none, q)) ∨
      (∃ K a l, c = K ++ a :: l ∧ (∀ x ∈ K, isEqual p (val x).elt = false) ∧ isEqual p (val a).elt = true ∧
        search (isEqual p) s (s.made + 1) (s.table (h p % s.size)) none = some (some a, K.getLast?)) := fun p c hc => by
    have := search_ok hl hc (isEqual p) (s.made + 1) [] c rfl (place_length hl hc) (by simp)
    rwa [← chain_head (hl.chains _ _ hc)] at this
  cases op with
  | count =>
    refine ⟨by simp [HashSet.step], fun t' o e => ?_⟩
    simp only [HashSet.step, Option.some.injEq, Prod.mk.injEq] at e
    obtain ⟨rfl, rfl⟩ := e
    exact ⟨s, by simp only [step, HashSet.count, h2], hr⟩
  | each =>
    refine ⟨by simp [HashSet.step], fun t' o e => ?_⟩
    simp only [HashSet.step, Option.some.injEq, Prod.mk.injEq] at e
    obtain ⟨rfl, rfl⟩ := e
    refine ⟨s, ?_, hr⟩
    have := eachAll_ok hl A [] rfl
    rw [hl.len, List.length_nil] at this
    simp only [step, this, Option.map_some, HashSet.each, ht]
    rw [← List.map_flatten, List.map_map]
    rfl
  | filter f =>
    refine ⟨by simp [HashSet.step], fun t' o e => ?_⟩
    simp only [HashSet.step, Option.some.injEq, Prod.mk.injEq] at e
    obtain ⟨rfl, rfl⟩ := e
    obtain ⟨s', P', e', hl', a', b'⟩ := filterAll_ok f val A [] s P hl
    rw [hl.len, List.length_nil] at e'
    refine ⟨s', by simp only [step, e', Option.map_some], ?_⟩
    rw [HashSet.filter_eq]
    refine ⟨by rw [a']; exact hs, by rw [a']; exact h1, ?_, _, P', val, hl', ?_⟩
    · show t.entries - _ = _
      rw [b', h2, ht]
      congr 1
      rw [← List.map_flatten, List.length_map, List.filter_map, List.length_map]
      rfl
    · show t.table.map _ = _
      rw [ht, List.nil_append, List.map_map, List.map_map]
      refine List.map_congr_left fun c _ => ?_
      simp only [Function.comp_apply, List.filter_map]
      rfl
  | find p =>
    obtain ⟨c, hc, hch, _⟩ := look p
    refine ⟨by simp [HashSet.step, HashSet.find, hch], fun t' o e => ?_⟩
    simp only [HashSet.step, HashSet.find, hch, Option.bind_eq_bind, Option.bind_some, Option.pure_def, Option.map_some, Option.some.injEq, Prod.mk.injEq] at e
    obtain ⟨rfl, rfl⟩ := e
    refine ⟨s, ?_, hr⟩
    rcases srch p c hc with ⟨hn, q, e⟩ | ⟨K, a, l, rfl, hK, ha, e⟩
    · simp only [step, find, e, find_map_none hn, Option.map_some, Option.map_none]
    · simp only [step, find, e, (find_map_some (l := l) hK ha).1, Option.map_some]
      rw [(hl.vals a (mem_place hc (by simp))).1]
  | remove p =>
    obtain ⟨c, hc, hch, htb⟩ := look p
    rcases srch p c hc with ⟨hn, q, e⟩ | ⟨K, a, l, rfl, hK, ha, e⟩
    · refine ⟨by simp [HashSet.step, HashSet.remove, hch, find_map_none hn], fun t' o e' => ?_⟩
      simp only [HashSet.step, HashSet.remove, hch, Option.bind_eq_bind, Option.bind_some, find_map_none hn, Option.pure_def, Option.map_some, Option.some.injEq, Prod.mk.injEq] at e'
      obtain ⟨rfl, rfl⟩ := e'
      exact ⟨s, by simp only [step, remove, e, Option.map_some], hr⟩
    · obtain ⟨f1, f2⟩ := find_map_some (l := l) hK ha
      refine ⟨by simp only [HashSet.step, HashSet.remove, hch, Option.bind_eq_bind, Option.bind_some, f1]; simp, fun t' o e' => ?_⟩
      simp only [HashSet.step, HashSet.remove, hch, Option.bind_eq_bind, Option.bind_some, f1, Option.pure_def, Option.map_some, Option.some.injEq, Prod.mk.injEq] at e'
      obtain ⟨rfl, rfl⟩ := e'
      obtain ⟨u1, u2, u3, u4, u5, u6⟩ := laid_unlink hl hc ((setPrev s (h p % s.size) K.getLast? (s.next a)).entries - 1)
      refine ⟨_, ?_, by rw [u2]; exact hs, by rw [u2]; exact h1, by rw [u4, u5, ← h2], _, _, val, u1, ?_⟩
      · simp only [step, remove, e, Option.map_some, u6]
        rw [(hl.vals a (mem_place hc (by simp))).1]
      · show t.table.modify (h p % t.size) _ = _
        rw [h1]
        apply List.ext_getElem?
        intro j
        rw [List.getElem?_modify, List.getElem?_map]
        by_cases hj : h p % s.size = j
        · subst hj
          have hilt : h p % s.size < A.length := by by_contra hh; rw [List.getElem?_eq_none (by omega)] at hc; cases hc
          rw [htb, List.getElem?_set_self hilt]
          simp only [if_true, Option.map_eq_map, Option.map_some, f2]
        · rw [List.getElem?_set_ne hj, ht, List.getElem?_map]
          simp only [if_neg hj]
          cases A[j]? <;> rfl
  | insert p u =>
    obtain ⟨c, hc, hch, htb⟩ := look p
    rcases srch p c hc with ⟨hn, q, e⟩ | ⟨K, a, l, rfl, hK, ha, e⟩
    · obtain ⟨P', g1, g2, g3, g4, g5, g6⟩ := laid_getUnused hl
      obtain ⟨s0, hs0⟩ : ∃ s0, s0 = (getUnusedBin s).1 := ⟨_, rfl⟩
      obtain ⟨a, ha⟩ : ∃ a, a = (getUnusedBin s).2 := ⟨_, rfl⟩
      rw [← hs0] at g1 g3 g4 g5 g6
      rw [← ha] at g2 g3
      rw [List.mem_append, not_or] at g2
      obtain ⟨s1, hs1⟩ : ∃ s1 : HS U, s1 = { s0 with hash := put s0.hash a (h p), elt := put s0.elt a (some u), next := put s0.next a (s0.table (h p % s.size)), table := put s0.table (h p % s.size) (some a), entries := s0.entries + 1 } := ⟨_, rfl⟩
      obtain ⟨t1, ht1⟩ : ∃ t1 : HashSet U, t1 = { t with table := HashSet.pushBin t.size t.table ⟨h p, u⟩, entries := t.entries + 1 } := ⟨_, rfl⟩
      have hilt : h p % s.size < A.length := by by_contra hh; rw [List.getElem?_eq_none (by omega)] at hc; cases hc
      have hperm := flatten_push_perm A (h p % s.size) a hilt
      have hval : A.map (List.map (put val a ⟨h p, u⟩)) = A.map (List.map val) := map_val_congr fun x hx => put_ne _ _ (show x ≠ a from fun e => g2.1 (e ▸ hx))
      have R1 : Rep s1 t1 := by
        subst hs1 ht1
        refine ⟨by show 0 < s0.size; rw [g4]; exact hs, by show t.size = s0.size; rw [g4, h1], by show t.entries + 1 = s0.entries + 1; rw [g5, h2],
          A.modify (h p % s.size) (a :: ·), P', put val a ⟨h p, u⟩, ⟨?_, ?_, ?_, ?_, ?_, ?_⟩, ?_⟩
        · show (A.modify _ _).length = s0.size
          rw [List.length_modify, g4, hl.len]
        · exact chains_push g1.chains g2.1
        · exact chain_congr P' _ (fun b hb => put_ne _ _ (show b ≠ a from fun e => g2.2 (e ▸ hb))) g1.pool
        · exact (hperm.append_right P').nodup_iff.2 (List.nodup_cons.2 ⟨fun hm => (List.mem_append.1 hm).elim g2.1 g2.2, g1.nodup⟩)
        · intro b hb
          rcases List.mem_cons.1 ((hperm.append_right P').mem_iff.1 hb) with rfl | hb
          · exact g3
          · exact g1.made b hb
        · intro b hb
          show put s0.elt a (some u) b = _ ∧ put s0.hash a (h p) b = _
          rcases List.mem_cons.1 (hperm.mem_iff.1 hb) with rfl | hb
          · simp only [put_self, and_self]
          · have hba : b ≠ a := fun e => g2.1 (e ▸ hb)
            rw [put_ne _ _ hba, put_ne _ _ hba, put_ne _ _ hba]
            exact g1.vals b hb
        · show HashSet.pushBin t.size t.table ⟨h p, u⟩ = _
          rw [map_modify_push, hval, put_self, HashSet.pushBin, ht, h1]
      have Eh : HashHeap.insert isEqual s (h p) p u = if s1.entries ≥ s1.size then (match resize s1 with | none => none | some s2 => some (s2, u)) else some (s1, u) := by
        simp only [HashHeap.insert, e, ← hs0, ← ha, hs1]
        rfl
      have Et : t.insert isEqual (h p) p u = if t1.entries ≥ t1.size then t1.resize.bind (fun t2 => some (t2, u)) else some (t1, u) := by
        simp only [HashSet.insert, hch, Option.bind_eq_bind, Option.bind_some, find_map_none hn, Option.pure_def, ht1]
      obtain ⟨-, q1, q2, -⟩ := id R1
      obtain ⟨r1, r2⟩ := resize_sim R1
      simp only [HashSet.step, step, Eh, Et, q1, q2]
      by_cases hg : s1.entries ≥ s1.size
      · simp only [if_pos hg]
        cases hz : t1.resize with
        | none => rw [r1 hz]; simp
        | some t2 =>
          obtain ⟨s2, e2, R2⟩ := r2 t2 hz
          simp only [e2, Option.bind_some, Option.map_some, Option.some.injEq, Prod.mk.injEq]
          refine ⟨by simp, ?_⟩
          rintro t' o ⟨rfl, rfl⟩
          exact ⟨s2, ⟨rfl, rfl⟩, R2⟩
      · simp only [if_neg hg, Option.map_some, Option.some.injEq, Prod.mk.injEq]
        refine ⟨by simp, ?_⟩
        rintro t' o ⟨rfl, rfl⟩
        exact ⟨s1, ⟨rfl, rfl⟩, R1⟩
    · obtain ⟨f1, f2⟩ := find_map_some (l := l) hK ha
      refine ⟨by simp only [HashSet.step, HashSet.insert, hch, Option.bind_eq_bind, Option.bind_some, f1]; simp, fun t' o e' => ?_⟩
      simp only [HashSet.step, HashSet.insert, hch, Option.bind_eq_bind, Option.bind_some, f1, Option.pure_def, Option.map_some, Option.some.injEq, Prod.mk.injEq] at e'
      obtain ⟨rfl, rfl⟩ := e'
      refine ⟨s, ?_, hr⟩
      simp only [step, HashHeap.insert, e, Option.map_some]
      rw [(hl.vals a (mem_place hc (by simp))).1]
      rfl

theorem rep_new [Nonempty U] : Rep (HashHeap.new : HS U) HashSet.new := by
  refine ⟨Nat.succ_pos _, rfl, rfl, List.replicate 5 [], [], fun _ => ⟨0, Classical.choice inferInstance⟩, ⟨rfl, fun i l hl => ?_, rfl, by simp, by simp, by simp⟩, ?_⟩
  · rw [List.getElem?_replicate] at hl
    split at hl
    · rw [Option.some.injEq] at hl; subst hl; rfl
    · cases hl
  · simp [HashSet.new]

theorem run_sim (isEqual : T → U → Bool) (h : T → Nat) : ∀ (ops : List (HashSet.Op T U)) {s : HS U} {t : HashSet U}, Rep s t →
    (HashSet.run isEqual h t ops = none → run isEqual h s ops = none) ∧
    ∀ t' os, HashSet.run isEqual h t ops = some (t', os) → ∃ s', run isEqual h s ops = some (s', os) ∧ Rep s' t'
  | [], s, t, hr => ⟨by simp [HashSet.run], fun t' os e => by
      simp only [HashSet.run, Option.some.injEq, Prod.mk.injEq] at e
      obtain ⟨rfl, rfl⟩ := e
      exact ⟨s, rfl, hr⟩⟩
  | op :: ops, s, t, hr => by
    obtain ⟨a1, a2⟩ := step_sim isEqual h hr op
    cases hz : HashSet.step isEqual h t op with
    | none =>
      refine ⟨fun _ => ?_, fun t' os e => ?_⟩
      · simp [run, a1 hz]
      · simp [HashSet.run, hz] at e
    | some r =>
      obtain ⟨t1, o⟩ := r
      obtain ⟨s1, e1, R1⟩ := a2 t1 o hz
      obtain ⟨b1, b2⟩ := run_sim isEqual h ops R1
      cases hy : HashSet.run isEqual h t1 ops with
      | none =>
        refine ⟨fun _ => ?_, fun t' os e => ?_⟩
        · simp [run, e1, b1 hy]
        · simp [HashSet.run, hz, hy] at e
      | some r =>
        obtain ⟨t2, os2⟩ := r
        obtain ⟨s2, e2, R2⟩ := b2 t2 os2 hy
        refine ⟨fun e => by simp [HashSet.run, hz, hy] at e, fun t' os e => ?_⟩
        simp only [HashSet.run, hz, hy, Option.bind_eq_bind, Option.bind_some, Option.pure_def, Option.some.injEq, Prod.mk.injEq] at e
        obtain ⟨rfl, rfl⟩ := e
        exact ⟨s2, by simp [run, e1, e2], R2⟩

/-- **C94.** Whatever the equality and the hash, a history of calls on a new set whose bins live in memory, are linked by pointers and recycled through the free list
shows the client exactly what the set of chains shows (C01): it panics only if that does, that is when the list of primes runs out, no loop runs on for ever and no
emptied bin is compared or handed to a callback. -/
theorem C94_bins_same_answers [Nonempty U] (isEqual : T → U → Bool) (h : T → Nat) (ops : List (HashSet.Op T U)) :
    (run isEqual h HashHeap.new ops).map Prod.snd = (HashSet.run isEqual h HashSet.new ops).map Prod.snd := by
  obtain ⟨a, b⟩ := run_sim isEqual h ops (rep_new (U := U))
  cases hz : HashSet.run isEqual h HashSet.new ops with
  | none => rw [a hz]; rfl
  | some r =>
    obtain ⟨s', e, _⟩ := b r.1 r.2 hz
    rw [e]; rfl

/-- **C94.** In every state a history leads to: following the links from a place of the table, or from the head of the free list, one comes to an end; no bin is met
twice, be it in one chain, in two chains or in a chain and the free list; all of them were made; the bins in the chains carry elements, the count is their number. -/
theorem C94_bins_apart [Nonempty U] (isEqual : T → U → Bool) (h : T → Nat) (hc : Consistent isEqual h) (ops : List (HashSet.Op T U)) (hok : ∀ op ∈ ops, OpOk isEqual op)
    {s : HS U} {os : List (HashSet.Out U)} (hr : run isEqual h HashHeap.new ops = some (s, os)) :
    ∃ (A : List (List Nat)) (P : List Nat), A.length = s.size ∧ (∀ i l, A[i]? = some l → Chain s.next (s.table i) l) ∧ Chain s.next s.pooled P ∧ (A.flatten ++ P).Nodup ∧
      (∀ a ∈ A.flatten ++ P, a < s.made) ∧ s.entries = A.flatten.length ∧
      ∀ i l, A[i]? = some l → ∀ a ∈ l, ∃ e p, s.elt a = some e ∧ isEqual p e ∧ s.hash a = h p ∧ h p % s.size = i := by
  obtain ⟨x, y⟩ := run_sim isEqual h ops (rep_new (U := U))
  cases hz : HashSet.run isEqual h HashSet.new ops with
  | none => rw [x hz] at hr; cases hr
  | some r =>
    obtain ⟨t, os'⟩ := r
    obtain ⟨s', e, hs, h1, h2, A, P, val, hl, ht⟩ := y t os' hz
    rw [hr, Option.some.injEq, Prod.mk.injEq] at e
    obtain ⟨rfl, rfl⟩ := e
    obtain ⟨-, -, hload⟩ := C02_hashset_load isEqual h hc ops hok hz
    have habs : (HashSet.abs (HashSet.new : HashSet U)).Perm [] := by simp [HashSet.abs, HashSet.new]
    obtain ⟨hi, _, _⟩ := HashSet.run_refines hc ops hok [] HashSet.inv_new habs hz
    refine ⟨A, P, hl.len, hl.chains, hl.pool, hl.nodup, hl.made, ?_, fun i l hil a ha => ?_⟩
    · rw [← h2, hi.cnt, ht, ← List.map_flatten, List.length_map]
    · obtain ⟨p, p1, p2, p3⟩ := hload i (l.map val) (by rw [ht, List.getElem?_map, hil]; rfl) (val a) (List.mem_map_of_mem ha)
      obtain ⟨v1, v2⟩ := hl.vals a (mem_place hil ha)
      exact ⟨(val a).elt, p, v1, p1, by rw [v2, p2], by rw [← h1]; exact p3⟩

/-- **C94.** The set of bins in memory is a set: C01 for it. -/
theorem C94_bins_refine_set [Nonempty U] (isEqual : T → U → Bool) (h : T → Nat) (hc : Consistent isEqual h)
    (ops : List (HashSet.Op T U)) (hok : ∀ op ∈ ops, OpOk isEqual op)
    (hcard : ∀ pre, pre <+: ops → (setRun isEqual [] pre).length < 1610612741) :
    ∃ s os, run isEqual h HashHeap.new ops = some (s, os) ∧ setOuts isEqual [] ops os := by
  obtain ⟨t, os, e, ho, _⟩ := C01_hashset_refines_set isEqual h hc ops hok hcard
  obtain ⟨s, e', _⟩ := (run_sim isEqual h ops (rep_new (U := U))).2 t os e
  exact ⟨s, os, e', ho⟩

/-- Six elements in one chain, the table growing from 5 to 13 places, 4 taken out and its bin (number 1021) used again for 8, 2 filtered out. -/
example : (run (fun (p e : Nat) => p == e) (fun _ => 7) HashHeap.new
    [.insert 1 1, .insert 2 2, .insert 3 3, .insert 4 4, .insert 5 5, .insert 6 6, .insert 3 3, .remove 4, .insert 8 8, .filter (· != 2)]).map
      (fun r => (r.1.size, r.1.entries, r.1.made, r.1.table 7)) = some (13, 5, 1025, some 1021) := by decide +kernel

end Cm
