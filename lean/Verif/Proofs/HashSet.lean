import Verif.Spec.HashSet
import Mathlib.Data.List.Basic
import Mathlib.Data.List.Perm.Basic
import Mathlib.Data.List.Nodup
import Mathlib.Tactic.Common

namespace Cm.HashSet
open Spec
variable {T U : Type}

/-- Invariant tying table, size, entries and hashes together. -/
structure Inv (isEqual : T → U → Bool) (h : T → Nat) (s : HashSet U) : Prop where
  len : s.table.length = s.size
  pos : 0 < s.size
  place : ∀ i c, s.table[i]? = some c → ∀ b ∈ c, b.hash % s.size = i
  keyed : ∀ b ∈ s.table.flatten, ∃ p, isEqual p b.elt ∧ b.hash = h p
  distinct : s.table.flatten.Pairwise (fun b b' => ∀ p, isEqual p b.elt → ¬ isEqual p b'.elt)
  cnt : s.entries = s.table.flatten.length
  load : s.entries < s.size

theorem flatten_modify_perm {α : Type} (t : List (List α)) (i : Nat) (hi : i < t.length) (b : α) :
    (t.modify i (b :: ·)).flatten.Perm (b :: t.flatten) := by
  induction t generalizing i with
  | nil => simp at hi
  | cons c cs ih =>
    cases i with
    | zero => simp
    | succ i =>
      simp only [List.modify_succ_cons, List.flatten_cons]
      have := ih i (by simpa using hi)
      exact (this.append_left c).trans (List.perm_middle)

theorem pushBin_length (n : Nat) (t : List (List (HBin U))) (b : HBin U) :
    (pushBin n t b).length = t.length := by simp [pushBin]

theorem foldl_pushBin_length (n : Nat) (l : List (HBin U)) (t : List (List (HBin U))) :
    (l.foldl (pushBin n) t).length = t.length := by
  induction l generalizing t with
  | nil => rfl
  | cons b l ih => simp [ih, pushBin_length]

theorem pushBin_perm (n : Nat) (hn : 0 < n) (t : List (List (HBin U))) (ht : t.length = n) (b : HBin U) :
    (pushBin n t b).flatten.Perm (b :: t.flatten) :=
  flatten_modify_perm t _ (by rw [ht]; exact Nat.mod_lt _ hn) b

theorem foldl_pushBin_perm (n : Nat) (hn : 0 < n) (l : List (HBin U)) (t : List (List (HBin U)))
    (ht : t.length = n) : (l.foldl (pushBin n) t).flatten.Perm (l ++ t.flatten) := by
  induction l generalizing t with
  | nil => simp
  | cons b l ih =>
    refine (ih _ (by rw [pushBin_length, ht])).trans ?_
    refine ((pushBin_perm n hn t ht b).append_left l).trans ?_
    exact List.perm_middle

def Placed (n : Nat) (t : List (List (HBin U))) : Prop :=
  ∀ i c, t[i]? = some c → ∀ b ∈ c, b.hash % n = i

theorem pushBin_placed (n : Nat) (t : List (List (HBin U))) (b : HBin U) (h : Placed n t) :
    Placed n (pushBin n t b) := by
  intro i c hc x hx
  unfold pushBin at hc
  rw [List.getElem?_modify] at hc
  cases hti : t[i]? with
  | none => simp [hti] at hc
  | some d =>
    simp only [hti, Option.map_eq_map, Option.map_some, Option.some.injEq] at hc
    by_cases hb : b.hash % n = i
    · simp only [hb, if_true] at hc
      subst hc
      rcases List.mem_cons.1 hx with rfl | hx
      · exact hb
      · exact h i d hti x hx
    · simp only [hb, if_false] at hc
      subst hc
      exact h i _ hti x hx

theorem foldl_pushBin_placed (n : Nat) (l : List (HBin U)) (t : List (List (HBin U))) (h : Placed n t) :
    Placed n (l.foldl (pushBin n) t) := by
  induction l generalizing t with
  | nil => exact h
  | cons b l ih => exact ih _ (pushBin_placed n t b h)

theorem replicate_placed (n : Nat) : Placed n (List.replicate n ([] : List (HBin U))) := by
  intro i c hc b hb
  have := List.mem_of_getElem? hc
  rw [List.mem_replicate] at this
  simp [this.2] at hb

theorem nextPrimeGo_ge (n : Nat) : ∀ l p, nextPrimeGo n l = some p → n ≤ p := by
  intro l
  induction l with
  | nil => intro p h; simp [nextPrimeGo] at h
  | cons q l ih =>
    intro p h
    unfold nextPrimeGo at h
    split at h
    · exact ih p h
    · cases h; omega

theorem nextPrime_ge {n p : Nat} (h : nextPrime n = some p) : n ≤ p := nextPrimeGo_ge n _ p h

theorem nextPrimeGo_some (n : Nat) : ∀ l : List Nat, (∃ p ∈ l, n ≤ p) → ∃ p, nextPrimeGo n l = some p := by
  intro l
  induction l with
  | nil => simp
  | cons q l ih =>
    rintro ⟨p, hp, hn⟩
    unfold nextPrimeGo
    split
    · rename_i hq
      rcases List.mem_cons.1 hp with rfl | hp
      · omega
      · exact ih ⟨p, hp, hn⟩
    · exact ⟨_, rfl⟩

theorem nextPrime_some (n : Nat) (h : n ≤ 1610612741) : ∃ p, nextPrime n = some p :=
  nextPrimeGo_some n primes ⟨1610612741, by simp [primes], h⟩

variable {isEqual : T → U → Bool} {h : T → Nat}

/-- In a well formed table the search in one chain is the search in the whole table. -/
theorem chain_find (hc : Consistent isEqual h) {s : HashSet U} (hs : Inv isEqual h s) (p : T) :
    ∃ ch, s.chain? (h p) = some ch ∧
      (∀ b, b ∈ ch ∧ isEqual p b.elt ↔ b ∈ s.table.flatten ∧ isEqual p b.elt) := by
  have hlt : h p % s.size < s.table.length := by rw [hs.len]; exact Nat.mod_lt _ hs.pos
  refine ⟨s.table[h p % s.size], by simp [chain?, List.getElem?_eq_getElem hlt], ?_⟩
  intro b
  constructor
  · rintro ⟨hb, he⟩
    exact ⟨List.mem_flatten.2 ⟨_, List.getElem_mem hlt, hb⟩, he⟩
  · rintro ⟨hb, he⟩
    refine ⟨?_, he⟩
    obtain ⟨c, hcm, hbc⟩ := List.mem_flatten.1 hb
    obtain ⟨i, hi⟩ := List.mem_iff_getElem?.1 hcm
    obtain ⟨q, hq, hh⟩ := hs.keyed b hb
    have h1 : b.hash % s.size = i := hs.place i c hi b hbc
    rw [hh, hc.hash q p b.elt hq he] at h1
    have := hi
    rw [← h1, List.getElem?_eq_getElem hlt] at this
    cases this
    exact hbc

theorem inv_new : Inv isEqual h (new : HashSet U) := by
  refine ⟨rfl, by simp [new], ?_, ?_, ?_, ?_, ?_⟩
  · exact replicate_placed 5
  all_goals simp [new]

/-- Everything `resize` guarantees. -/
theorem resize_inv {s s' : HashSet U}
    (hkey : ∀ b ∈ s.table.flatten, ∃ p, isEqual p b.elt ∧ b.hash = h p)
    (hd : s.table.flatten.Pairwise (fun b b' => ∀ p, isEqual p b.elt → ¬ isEqual p b'.elt))
    (hcnt : s.entries = s.table.flatten.length) (hload : s.entries ≤ s.size)
    (hr : s.resize = some s') :
    Inv isEqual h s' ∧ s'.table.flatten.Perm s.table.flatten ∧ s.size < s'.size := by
  unfold resize at hr
  split at hr
  · cases hr
  · rename_i n hn
    cases hr
    have hge := nextPrime_ge hn
    have hpos : 0 < n := by omega
    have hperm : (s.table.flatten.foldl (pushBin n) (List.replicate n [])).flatten.Perm s.table.flatten := by
      have := foldl_pushBin_perm n hpos s.table.flatten (List.replicate n []) (by simp)
      simpa using this
    refine ⟨⟨?_, hpos, ?_, ?_, ?_, ?_, ?_⟩, hperm, hge⟩
    · simp [foldl_pushBin_length]
    · exact foldl_pushBin_placed n _ _ (replicate_placed n)
    · intro b hb; exact hkey b (hperm.mem_iff.1 hb)
    · refine (hperm.pairwise_iff ?_).2 hd
      intro a b hab p hp hq; exact hab p hq hp
    · simp only; rw [hcnt, hperm.length_eq]
    · simp only; omega

/-- Elements of the table. -/
def abs (s : HashSet U) : List U := s.table.flatten.map HBin.elt

theorem chain_any (hc : Consistent isEqual h) {s : HashSet U} (hs : Inv isEqual h s) (p : T) {ch}
    (hch : s.chain? (h p) = some ch) :
    (∀ b, b ∈ ch ∧ isEqual p b.elt ↔ b ∈ s.table.flatten ∧ isEqual p b.elt) := by
  obtain ⟨ch', h1, h2⟩ := chain_find hc hs p
  rw [h1] at hch; cases hch; exact h2

/-- Result of the search loop. -/
theorem find_some_of (hc : Consistent isEqual h) {s : HashSet U} (hs : Inv isEqual h s) (p : T) {ch b}
    (hch : s.chain? (h p) = some ch) (hf : ch.find? (fun b => isEqual p b.elt) = some b) :
    b ∈ ch ∧ b ∈ s.table.flatten ∧ isEqual p b.elt := by
  have h1 := List.mem_of_find?_eq_some hf
  have h2 : isEqual p b.elt := by simpa using List.find?_some hf
  exact ⟨h1, ((chain_any hc hs p hch b).1 ⟨h1, h2⟩).1, h2⟩

theorem find_none_of (hc : Consistent isEqual h) {s : HashSet U} (hs : Inv isEqual h s) (p : T) {ch}
    (hch : s.chain? (h p) = some ch) (hf : ch.find? (fun b => isEqual p b.elt) = none) :
    ∀ b ∈ s.table.flatten, ¬ isEqual p b.elt := by
  intro b hb he
  have := ((chain_any hc hs p hch b).2 ⟨hb, he⟩).1
  rw [List.find?_eq_none] at hf
  exact hf b this (by simpa using he)

theorem any_abs_iff (s : HashSet U) (p : T) :
    (abs s).any (isEqual p) = true ↔ ∃ b ∈ s.table.flatten, isEqual p b.elt = true := by
  unfold abs; rw [List.any_map, List.any_eq_true]; rfl

theorem perm_any {L L' : List U} (hp : L.Perm L') (f : U → Bool) : L.any f = L'.any f := by
  rw [Bool.eq_iff_iff, List.any_eq_true, List.any_eq_true]
  simp [hp.mem_iff]

/-! ### erase -/

theorem flatten_modify_eraseP {α : Type} (t : List (List α)) (i : Nat) (c : List α) (hi : t[i]? = some c)
    (f : α → Bool) (hother : ∀ j c', t[j]? = some c' → j ≠ i → ∀ b ∈ c', ¬ f b)
    (huniq : t.flatten.Pairwise (fun a b => f a → ¬ f b)) :
    (t.modify i (fun c => c.eraseP f)).flatten = t.flatten.filter (fun b => !f b) := by
  induction t generalizing i with
  | nil => simp at hi
  | cons d ds ih =>
    rw [List.flatten_cons, List.pairwise_append] at huniq
    cases i with
    | zero =>
      simp only [List.getElem?_cons_zero, Option.some.injEq] at hi
      subst hi
      simp only [List.modify_zero_cons, List.flatten_cons, List.filter_append]
      congr 1
      · have hd := huniq.1
        clear huniq hother ih
        induction d with
        | nil => rfl
        | cons x xs ih =>
          rw [List.pairwise_cons] at hd
          by_cases hx : f x
          · rw [List.eraseP_cons_of_pos hx, List.filter_cons_of_neg (by simp [hx])]
            rw [List.filter_eq_self.2]
            intro a ha; simpa using hd.1 a ha hx
          · rw [List.eraseP_cons_of_neg hx, List.filter_cons_of_pos (by simp [hx]), ih hd.2]
      · symm; rw [List.filter_eq_self]
        intro a ha
        obtain ⟨c', hc', hac'⟩ := List.mem_flatten.1 ha
        obtain ⟨j, hj⟩ := List.mem_iff_getElem?.1 hc'
        simpa using hother (j+1) c' (by simpa using hj) (by omega) a hac'
    | succ i =>
      simp only [List.modify_succ_cons, List.flatten_cons, List.filter_append]
      rw [ih i (by simpa using hi) ?_ huniq.2.1]
      · congr 1
        symm; rw [List.filter_eq_self]
        intro a ha
        simpa using hother 0 d (by simp) (by omega) a ha
      · intro j c' hj hne b hb
        exact hother (j+1) c' (by simpa using hj) (by omega) b hb

/-! ### filter -/

theorem filterChain_eq (f : U → Bool) (c : List (HBin U)) :
    filterChain (σ := Unit) (fun u w => (f u, w)) c () =
      (c.filter (fun b => f b.elt), c.length - (c.filter (fun b => f b.elt)).length, ()) := by
  induction c with
  | nil => rfl
  | cons b bs ih =>
    have hle := List.length_filter_le (fun b => f b.elt) bs
    by_cases hb : f b.elt
    · simp only [filterChain, ih, hb, if_true, List.filter_cons_of_pos, List.length_cons]
      simp only [Prod.mk.injEq, and_true, true_and]; omega
    · simp only [filterChain, ih, hb, List.length_cons]
      rw [List.filter_cons_of_neg (by simp [hb])]
      simp only [Prod.mk.injEq, Bool.false_eq_true, if_false, and_true, true_and]; omega

theorem filterTable_eq (f : U → Bool) (t : List (List (HBin U))) :
    filterTable (σ := Unit) (fun u w => (f u, w)) t () =
      (t.map (·.filter (fun b => f b.elt)),
        t.flatten.length - (t.flatten.filter (fun b => f b.elt)).length, ()) := by
  induction t with
  | nil => rfl
  | cons c cs ih =>
    simp only [filterTable, filterChain_eq, ih, List.map_cons, List.flatten_cons, List.length_append,
      List.filter_append]
    have h1 := List.length_filter_le (fun b : HBin U => f b.elt) c
    have h2 := List.length_filter_le (fun b : HBin U => f b.elt) cs.flatten
    simp only [Prod.mk.injEq, and_true, true_and]; omega

theorem flatten_map_filter {α : Type} (f : α → Bool) (t : List (List α)) :
    (t.map (·.filter f)).flatten = t.flatten.filter f := by
  induction t with
  | nil => rfl
  | cons c cs ih => rw [List.map_cons, List.flatten_cons, List.flatten_cons, List.filter_append, ih]

theorem filter_eq (s : HashSet U) (f : U → Bool) :
    (HashSet.filter (σ := Unit) (fun u w => (f u, w)) s ()).1 =
      { s with table := s.table.map (·.filter (fun b => f b.elt)),
               entries := s.entries -
                 (s.table.flatten.length - (s.table.flatten.filter (fun b => f b.elt)).length) } := by
  unfold HashSet.filter; rw [filterTable_eq]

theorem inv_filter {s : HashSet U} (hs : Inv isEqual h s) (f : U → Bool) :
    Inv isEqual h (HashSet.filter (σ := Unit) (fun u w => (f u, w)) s ()).1 ∧
    abs (HashSet.filter (σ := Unit) (fun u w => (f u, w)) s ()).1 = (abs s).filter f := by
  rw [filter_eq]
  have habs := flatten_map_filter (fun b : HBin U => f b.elt) s.table
  have h1 := List.length_filter_le (fun b : HBin U => f b.elt) s.table.flatten
  have h2 := hs.cnt
  have h3 := hs.load
  constructor
  · refine ⟨by simp only [List.length_map, hs.len], hs.pos, ?_, ?_, ?_, ?_, ?_⟩
    · intro i c hc b hb
      simp only [List.getElem?_map, Option.map_eq_some_iff] at hc
      obtain ⟨d, hd, rfl⟩ := hc
      exact hs.place i d hd b (List.mem_of_mem_filter hb)
    · intro b hb; simp only [habs] at hb; exact hs.keyed b (List.mem_of_mem_filter hb)
    · simp only [habs]; exact hs.distinct.filter _
    · simp only [habs]; omega
    · simp only; omega
  · unfold abs; simp only [habs]; rw [List.filter_map]; rfl

/-- One operation refines one abstract operation. -/
theorem step_refines (hc : Consistent isEqual h) {s s' : HashSet U} {o : Out U} {op : Op T U}
    (hok : OpOk isEqual op) (hs : Inv isEqual h s) (L : List U) (hL : (abs s).Perm L)
    (hst : step isEqual h s op = some (s', o)) :
    Inv isEqual h s' ∧ (abs s').Perm (setStep isEqual L op) ∧ setOut isEqual L op o := by
  have hany : ∀ p, L.any (isEqual p) = true ↔ ∃ b ∈ s.table.flatten, isEqual p b.elt = true := by
    intro p; rw [← perm_any hL, any_abs_iff]
  have hmem : ∀ b ∈ s.table.flatten, b.elt ∈ L := fun b hb =>
    hL.mem_iff.1 (List.mem_map.2 ⟨b, hb, rfl⟩)
  cases op with
  | insert p u =>
    obtain ⟨ch, hch, _⟩ := chain_find hc hs p
    simp only [step, insert, hch, Option.bind_eq_bind, Option.bind_some] at hst
    split at hst
    · rename_i b hb
      obtain ⟨_, hbt, hbe⟩ := find_some_of hc hs p hch hb
      simp only [Option.pure_def, Option.map_some, Option.some.injEq, Prod.mk.injEq] at hst
      obtain ⟨rfl, rfl⟩ := hst
      have ha : L.any (isEqual p) = true := (hany p).2 ⟨b, hbt, hbe⟩
      simp only [setStep, setOut, ha, if_true]
      exact ⟨hs, hL, b.elt, hmem b hbt, hbe, rfl⟩
    · rename_i hnone
      have hno := find_none_of hc hs p hch hnone
      have ha : L.any (isEqual p) = false := by
        rw [Bool.eq_false_iff]; intro hh
        obtain ⟨b, hb, he⟩ := (hany p).1 hh
        exact hno b hb he
      have ho : setOut isEqual L (.insert p u) (.elt (some u)) := by simp [setOut, ha]
      simp only [setStep, ha]
      have hperm := pushBin_perm s.size hs.pos s.table hs.len ⟨h p, u⟩
      have hkey : ∀ b ∈ (pushBin s.size s.table ⟨h p, u⟩).flatten, ∃ q, isEqual q b.elt ∧ b.hash = h q := by
        intro b hb
        rcases List.mem_cons.1 (hperm.mem_iff.1 hb) with rfl | hb
        · exact ⟨p, hok, rfl⟩
        · exact hs.keyed b hb
      have hdist : (pushBin s.size s.table ⟨h p, u⟩).flatten.Pairwise
          (fun b b' => ∀ q, isEqual q b.elt → ¬ isEqual q b'.elt) := by
        refine (hperm.pairwise_iff ?_).2 ?_
        · intro a b hab q hq hq'; exact hab q hq' hq
        · rw [List.pairwise_cons]
          refine ⟨?_, hs.distinct⟩
          intro b hb q hq hqb
          exact hno b hb (hc.cls q p u b.elt hq hok hqb)
      have hcnt : s.entries + 1 = (pushBin s.size s.table ⟨h p, u⟩).flatten.length := by
        rw [hperm.length_eq, List.length_cons, hs.cnt]
      have habs : ((pushBin s.size s.table ⟨h p, u⟩).flatten.map HBin.elt).Perm (u :: L) := by
        refine (hperm.map _).trans ?_
        exact hL.cons u
      split at hst
      · rename_i hge
        cases hr : ({ s with table := pushBin s.size s.table ⟨h p, u⟩, entries := s.entries + 1 } : HashSet U).resize with
        | none => simp [hr] at hst
        | some s2 =>
          simp only [hr, Option.bind_some, Option.pure_def, Option.map_some, Option.some.injEq,
            Prod.mk.injEq] at hst
          obtain ⟨rfl, rfl⟩ := hst
          have hl := hs.load
          obtain ⟨hi, hp2, _⟩ := resize_inv (isEqual := isEqual) (h := h)
            hkey hdist hcnt (by simp only; omega) hr
          exact ⟨hi, (hp2.map _).trans habs, ho⟩
      · rename_i hlt
        simp only [Option.pure_def, Option.map_some, Option.some.injEq, Prod.mk.injEq] at hst
        obtain ⟨rfl, rfl⟩ := hst
        refine ⟨⟨by simp [pushBin_length, hs.len], hs.pos, ?_, hkey, hdist, hcnt, ?_⟩, habs, ho⟩
        · exact pushBin_placed _ _ _ hs.place
        · simpa using hlt
  | remove p =>
    obtain ⟨ch, hch, hchm⟩ := chain_find hc hs p
    simp only [step, remove, hch, Option.bind_eq_bind, Option.bind_some] at hst
    split at hst
    · rename_i b hb
      obtain ⟨_, hbt, hbe⟩ := find_some_of hc hs p hch hb
      simp only [Option.pure_def, Option.map_some, Option.some.injEq, Prod.mk.injEq] at hst
      obtain ⟨rfl, rfl⟩ := hst
      have ha : L.any (isEqual p) = true := (hany p).2 ⟨b, hbt, hbe⟩
      simp only [setStep, setOut, ha, if_true]
      have hdp : s.table.flatten.Pairwise (fun a b => isEqual p a.elt = true → ¬ isEqual p b.elt = true) :=
        hs.distinct.imp (fun hab => hab p)
      have hfl : (s.table.modify (h p % s.size) (fun c => c.eraseP (fun b => isEqual p b.elt))).flatten
          = s.table.flatten.filter (fun b => !isEqual p b.elt) := by
        refine flatten_modify_eraseP s.table _ ch hch _ ?_ hdp
        intro j c' hj hne b' hb' he'
        have hb'f : b' ∈ s.table.flatten := List.mem_flatten.2 ⟨c', List.mem_of_getElem? hj, hb'⟩
        have h1 := hs.place j c' hj b' hb'
        have h2 := hs.place _ ch hch b' ((hchm b').2 ⟨hb'f, he'⟩).1
        omega
      have hlen : (s.table.flatten.filter (fun b => !isEqual p b.elt)).length = s.table.flatten.length - 1 := by
        rw [← hfl]
        clear hfl
        have hlt : h p % s.size < s.table.length := by rw [hs.len]; exact Nat.mod_lt _ hs.pos
        have hsplit := List.mem_iff_append.1 hbt
        obtain ⟨l1, l2, h12⟩ := hsplit
        have hd2 := hdp
        rw [h12, List.pairwise_append] at hd2
        have hfl2 : (s.table.modify (h p % s.size) (fun c => c.eraseP (fun b => isEqual p b.elt))).flatten
          = s.table.flatten.filter (fun b => !isEqual p b.elt) := by
          refine flatten_modify_eraseP s.table _ ch hch _ ?_ hdp
          intro j c' hj hne b' hb' he'
          have hb'f : b' ∈ s.table.flatten := List.mem_flatten.2 ⟨c', List.mem_of_getElem? hj, hb'⟩
          have h1 := hs.place j c' hj b' hb'
          have h2 := hs.place _ ch hch b' ((hchm b').2 ⟨hb'f, he'⟩).1
          omega
        rw [hfl2, h12, List.filter_append, List.filter_cons_of_neg (by simp [hbe])]
        rw [List.filter_eq_self.2, List.filter_eq_self.2]
        · simp
        · intro a ha'
          have := (List.pairwise_cons.1 hd2.2.1).1 a ha' hbe
          simpa using this
        · intro a ha'
          by_contra hcon
          have hae : isEqual p a.elt = true := by simpa using hcon
          exact hd2.2.2 a ha' b (by simp) hae hbe
      have hpos : 0 < s.table.flatten.length := List.length_pos_of_mem hbt
      refine ⟨⟨?_, hs.pos, ?_, ?_, ?_, ?_, ?_⟩, ?_, b.elt, hmem b hbt, hbe, rfl⟩
      · simp [hs.len]
      · intro i c hci x hx
        simp only [List.getElem?_modify] at hci
        cases hti : s.table[i]? with
        | none => simp [hti] at hci
        | some d =>
          simp only [hti, Option.map_eq_map, Option.map_some, Option.some.injEq] at hci
          split at hci
          · subst hci; exact hs.place i d hti x (List.mem_of_mem_eraseP hx)
          · subst hci; exact hs.place i _ hti x hx
      · intro x hx; simp only [hfl] at hx; exact hs.keyed x (List.mem_of_mem_filter hx)
      · simp only [hfl]; exact hs.distinct.filter _
      · simp only [hfl, hlen, hs.cnt]
      · have := hs.load; simp only; omega
      · show List.Perm (List.map HBin.elt _) _
        simp only [hfl]
        have : (s.table.flatten.filter (fun b => !isEqual p b.elt)).map HBin.elt
            = (abs s).filter (fun e => !isEqual p e) := by
          unfold abs; rw [List.filter_map]; rfl
        rw [this]; exact hL.filter _
    · rename_i hnone
      have hno := find_none_of hc hs p hch hnone
      simp only [Option.pure_def, Option.map_some, Option.some.injEq, Prod.mk.injEq] at hst
      obtain ⟨rfl, rfl⟩ := hst
      have ha : L.any (isEqual p) = false := by
        rw [Bool.eq_false_iff]; intro hh
        obtain ⟨b, hb, he⟩ := (hany p).1 hh
        exact hno b hb he
      refine ⟨hs, ?_, by simp [setOut, ha]⟩
      simp only [setStep]
      rw [List.filter_eq_self.2]; exact hL
      intro a ha'
      rw [List.any_eq_false] at ha
      simpa using ha a ha'
  | find p =>
    obtain ⟨ch, hch, _⟩ := chain_find hc hs p
    simp only [step, find, hch, Option.bind_eq_bind, Option.bind_some, Option.pure_def, Option.map_some,
      Option.some.injEq, Prod.mk.injEq] at hst
    obtain ⟨rfl, rfl⟩ := hst
    refine ⟨hs, hL, ?_⟩
    simp only [setOut]
    cases hf : ch.find? (fun b => isEqual p b.elt) with
    | some b =>
      obtain ⟨_, hbt, hbe⟩ := find_some_of hc hs p hch hf
      rw [if_pos ((hany p).2 ⟨b, hbt, hbe⟩)]
      exact ⟨b.elt, hmem b hbt, hbe, rfl⟩
    | none =>
      have hno := find_none_of hc hs p hch hf
      rw [if_neg]; · rfl
      intro hh
      obtain ⟨b, hb, he⟩ := (hany p).1 hh
      exact hno b hb he
  | each =>
    simp only [step, Option.some.injEq, Prod.mk.injEq] at hst
    obtain ⟨rfl, rfl⟩ := hst
    exact ⟨hs, hL, hL⟩
  | filter f =>
    simp only [step, Option.some.injEq, Prod.mk.injEq] at hst
    obtain ⟨rfl, rfl⟩ := hst
    obtain ⟨hi, ha⟩ := inv_filter hs f
    refine ⟨hi, ?_, trivial⟩
    rw [ha]; exact hL.filter _
  | count =>
    simp only [step, Option.some.injEq, Prod.mk.injEq] at hst
    obtain ⟨rfl, rfl⟩ := hst
    refine ⟨hs, hL, ?_⟩
    show s.entries = L.length
    rw [hs.cnt, ← hL.length_eq, abs, List.length_map]

theorem run_refines (hc : Consistent isEqual h) (ops : List (Op T U)) (hok : ∀ op ∈ ops, OpOk isEqual op) :
    ∀ {s s' : HashSet U} {os : List (Out U)} (L : List U), Inv isEqual h s → (abs s).Perm L →
      run isEqual h s ops = some (s', os) →
      Inv isEqual h s' ∧ (abs s').Perm (setRun isEqual L ops) ∧ setOuts isEqual L ops os := by
  induction ops with
  | nil =>
    intro s s' os L hs hL hr
    simp only [run, Option.some.injEq, Prod.mk.injEq] at hr
    obtain ⟨rfl, rfl⟩ := hr
    exact ⟨hs, hL, trivial⟩
  | cons op ops ih =>
    intro s s' os L hs hL hr
    simp only [run, Option.bind_eq_bind, Option.bind_eq_some_iff] at hr
    obtain ⟨⟨s1, o⟩, h1, ⟨s2, os2⟩, h2, h3⟩ := hr
    simp only [Option.pure_def, Option.some.injEq, Prod.mk.injEq] at h3
    obtain ⟨rfl, rfl⟩ := h3
    obtain ⟨hi, hp, ho⟩ := step_refines hc (hok op (by simp)) hs L hL h1
    obtain ⟨hi2, hp2, ho2⟩ := ih (fun op hop => hok op (by simp [hop])) _ hi hp h2
    exact ⟨hi2, hp2, ho, ho2⟩

/-- The only failing operation is a growth past the last prime. -/
theorem step_total (hc : Consistent isEqual h) {s : HashSet U} {op : Op T U}
    (hs : Inv isEqual h s) (hsz : s.size < 1610612741) : ∃ r, step isEqual h s op = some r := by
  cases op with
  | insert p u =>
    obtain ⟨ch, hch, _⟩ := chain_find hc hs p
    simp only [step, insert, hch, Option.bind_eq_bind, Option.bind_some]
    split
    · exact ⟨_, rfl⟩
    · split
      · obtain ⟨n, hn⟩ := nextPrime_some (s.size + 1) (by omega)
        simp [resize, hn]
      · exact ⟨_, rfl⟩
  | remove p =>
    obtain ⟨ch, hch, _⟩ := chain_find hc hs p
    simp only [step, remove, hch, Option.bind_eq_bind, Option.bind_some]
    split <;> exact ⟨_, rfl⟩
  | find p =>
    obtain ⟨ch, hch, _⟩ := chain_find hc hs p
    simp [step, find, hch]
  | each => exact ⟨_, rfl⟩
  | filter f => exact ⟨_, rfl⟩
  | count => exact ⟨_, rfl⟩

end Cm.HashSet

namespace Cm.HashSet
open Spec
variable {T U : Type} {isEqual : T → U → Bool} {h : T → Nat}

theorem nextPrimeGo_mem (n : Nat) : ∀ l p, nextPrimeGo n l = some p → p ∈ l := by
  intro l
  induction l with
  | nil => intro p h; simp [nextPrimeGo] at h
  | cons q l ih =>
    intro p h
    unfold nextPrimeGo at h
    split at h
    · exact List.mem_cons_of_mem _ (ih p h)
    · cases h; simp

theorem nextPrime_le {n p : Nat} (h : nextPrime n = some p) : p ≤ 1610612741 := by
  have := nextPrimeGo_mem n _ p h
  revert p
  have : ∀ p ∈ primes, p ≤ 1610612741 := by decide
  intro p _ hp; exact this p hp

theorem step_size {s s' : HashSet U} {o : Out U} {op : Op T U} (hsz : s.size ≤ 1610612741)
    (hst : step isEqual h s op = some (s', o)) : s'.size ≤ 1610612741 := by
  cases op with
  | insert p u =>
    simp only [step, insert, Option.bind_eq_bind, Option.map_eq_some_iff, Option.bind_eq_some_iff] at hst
    obtain ⟨⟨a, b⟩, ⟨ch, hch, hm⟩, hr⟩ := hst
    simp only [Prod.mk.injEq] at hr
    obtain ⟨rfl, _⟩ := hr
    split at hm
    · simp only [Option.pure_def, Option.some.injEq, Prod.mk.injEq] at hm; rw [← hm.1]; exact hsz
    · split at hm
      · simp only [Option.bind_eq_some_iff] at hm
        obtain ⟨s2, h2, h3⟩ := hm
        simp only [Option.pure_def, Option.some.injEq, Prod.mk.injEq] at h3
        rw [← h3.1]
        unfold resize at h2
        split at h2
        · cases h2
        · rename_i n hn; cases h2; exact nextPrime_le hn
      · simp only [Option.pure_def, Option.some.injEq, Prod.mk.injEq] at hm; rw [← hm.1]; exact hsz
  | remove p =>
    simp only [step, remove, Option.bind_eq_bind, Option.map_eq_some_iff, Option.bind_eq_some_iff] at hst
    obtain ⟨⟨a, b⟩, ⟨ch, hch, hm⟩, hr⟩ := hst
    simp only [Prod.mk.injEq] at hr
    obtain ⟨rfl, _⟩ := hr
    split at hm <;> simp only [Option.pure_def, Option.some.injEq, Prod.mk.injEq] at hm <;> rw [← hm.1] <;> exact hsz
  | find p =>
    simp only [step, Option.map_eq_some_iff, Prod.mk.injEq] at hst
    obtain ⟨_, _, rfl, _⟩ := hst; exact hsz
  | each => simp only [step, Option.some.injEq, Prod.mk.injEq] at hst; rw [← hst.1]; exact hsz
  | filter f => simp only [step, Option.some.injEq, Prod.mk.injEq] at hst; rw [← hst.1]; exact hsz
  | count => simp only [step, Option.some.injEq, Prod.mk.injEq] at hst; rw [← hst.1]; exact hsz

/-- An operation fails only when it makes the set reach the last prime. -/
theorem step_total' (hc : Consistent isEqual h) {s : HashSet U} {op : Op T U} (L : List U)
    (hL : (abs s).Perm L)
    (hs : Inv isEqual h s) (hsz : s.size ≤ 1610612741)
    (hcard : (setStep isEqual L op).length < 1610612741) : ∃ r, step isEqual h s op = some r := by
  by_cases h' : s.size < 1610612741
  · exact step_total hc hs h'
  · have hsz' : s.size = 1610612741 := by omega
    cases op with
    | insert p u =>
      obtain ⟨ch, hch, _⟩ := chain_find hc hs p
      simp only [step, insert, hch, Option.bind_eq_bind, Option.bind_some]
      split
      · exact ⟨_, rfl⟩
      · rename_i hnone
        have hno := find_none_of hc hs p hch hnone
        have ha : L.any (isEqual p) = false := by
          rw [Bool.eq_false_iff]; intro hh
          rw [← perm_any hL, any_abs_iff] at hh
          obtain ⟨b, hb, he⟩ := hh
          exact hno b hb he
        simp only [setStep, ha] at hcard
        have hl : L.length = s.entries := by rw [hs.cnt, ← hL.length_eq, abs, List.length_map]
        rw [if_neg]
        · exact ⟨_, rfl⟩
        · simp only [Bool.false_eq_true, if_false, List.length_cons] at hcard
          omega
    | remove p =>
      obtain ⟨ch, hch, _⟩ := chain_find hc hs p
      simp only [step, remove, hch, Option.bind_eq_bind, Option.bind_some]
      split <;> exact ⟨_, rfl⟩
    | find p =>
      obtain ⟨ch, hch, _⟩ := chain_find hc hs p
      simp [step, find, hch]
    | each => exact ⟨_, rfl⟩
    | filter f => exact ⟨_, rfl⟩
    | count => exact ⟨_, rfl⟩

theorem run_total (hc : Consistent isEqual h) (ops : List (Op T U)) (hok : ∀ op ∈ ops, OpOk isEqual op) :
    ∀ {s : HashSet U} (L : List U), Inv isEqual h s → (abs s).Perm L → s.size ≤ 1610612741 →
      (∀ pre, pre <+: ops → (setRun isEqual L pre).length < 1610612741) →
      ∃ r, run isEqual h s ops = some r := by
  induction ops with
  | nil => intro s L _ _ _ _; exact ⟨_, rfl⟩
  | cons op ops ih =>
    intro s L hs hL hsz hcard
    obtain ⟨⟨s1, o⟩, h1⟩ := step_total' hc (op := op) L hL hs hsz (hcard [op] (by simp))
    obtain ⟨hi, hp, _⟩ := step_refines hc (hok op (by simp)) hs L hL h1
    obtain ⟨r, hr⟩ := ih (fun op hop => hok op (by simp [hop])) (setStep isEqual L op) hi hp (step_size hsz h1)
      (by intro pre hpre
          have := hcard (op :: pre) (by simpa using hpre)
          simpa [setRun] using this)
    simp only [run, h1, Option.bind_eq_bind, Option.bind_some, hr]
    exact ⟨_, rfl⟩

end Cm.HashSet
