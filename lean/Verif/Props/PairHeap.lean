import Verif.Props.Threads
import Verif.Model.BBTree
/-! # C74: the cached pair lists of the broad phase -/
set_option linter.unusedSectionVars false
set_option linter.unusedSimpArgs false
set_option linter.unusedVariables false
set_option linter.unnecessarySeqFocus false

namespace Cm
namespace Spec

/-- Remember a pair of owners, or forget all pairs of an owner. -/
inductive PairOp (N B : Type) where
  | insert (a b : B) (fresh : N × List N)
  | clear (x : B)

/-- The pairs remembered after an operation, newest first. -/
def pairStep {N B : Type} [DecidableEq B] (ps : List (B × B)) : PairOp N B → List (B × B)
  | .insert a b _ => (a, b) :: ps
  | .clear x => ps.filter fun p => ¬ (p.1 = x ∨ p.2 = x)

/-- The memory allocated should the pool be empty. -/
def PairOp.allocated {N B : Type} : PairOp N B → List N
  | .insert _ _ fresh => fresh.1 :: fresh.2
  | .clear _ => []

end Spec

namespace Threads
open Spec
variable {N B : Type} [DecidableEq N] [DecidableEq B]

/-! ## Unlinking one thread -/

theorem unlink_endA (h : Heap N B) (b : B) (n : N) : (h.unlink b n).endA = h.endA := by
  unfold Heap.unlink; cases h.next b n <;> cases h.prev b n <;> simp
theorem unlink_endB (h : Heap N B) (b : B) (n : N) : (h.unlink b n).endB = h.endB := by
  unfold Heap.unlink; cases h.next b n <;> cases h.prev b n <;> simp

theorem unlink_head (h : Heap N B) (b c : B) (n : N) :
    (h.unlink b n).head c = if c = b ∧ h.prev b n = none then h.next b n else h.head c := by
  unfold Heap.unlink; cases h.next b n <;> cases h.prev b n <;> simp [setHead_head]

theorem unlink_next {h : Heap N B} {b c : B} {n m : N} (hp : ∀ q, h.prev b n = some q → Inc h b q ∧ Two h q) (hc : Inc h c m) :
    (h.unlink b n).next c m = if c = b ∧ h.prev b n = some m then h.next b n else h.next c m := by
  unfold Heap.unlink
  cases e : h.prev b n with
  | none => cases h.next b n <;> simp
  | some q =>
    obtain ⟨i, t⟩ := hp q e
    have key : ∀ h1 : Heap N B, h1.endA = h.endA → h1.endB = h.endB → (∀ c m, h1.next c m = h.next c m) →
        (h1.setNext b q (h.next b n)).next c m = if c = b ∧ some q = some m then h.next b n else h.next c m := by
      intro h1 e1 e2 e3
      rw [setNext_next (h := h1) _ (t.of e1 e2) (i.of e1 e2) (hc.of e1 e2), e3]
      congr 1
      exact propext ⟨fun h => ⟨h.2, by rw [h.1]⟩, fun h => ⟨(Option.some.inj h.2).symm, h.1⟩⟩
    refine key _ ?_ ?_ ?_
    · cases h.next b n <;> simp
    · cases h.next b n <;> simp
    · intro c m; cases h.next b n <;> simp

theorem unlink_prev {h : Heap N B} {b c : B} {n m : N} (hp : ∀ q, h.next b n = some q → Inc h b q ∧ Two h q) (hc : Inc h c m) :
    (h.unlink b n).prev c m = if c = b ∧ h.next b n = some m then h.prev b n else h.prev c m := by
  unfold Heap.unlink
  cases e : h.next b n with
  | none => cases h.prev b n <;> simp
  | some q =>
    obtain ⟨i, t⟩ := hp q e
    have := setPrev_prev (h.prev b n) t i hc
    cases e2 : h.prev b n <;> rw [e2] at this <;> simp only [setNext_prev, setHead_prev, this, Option.some.injEq] <;>
      (congr 1; exact propext ⟨fun h => ⟨h.2, h.1.symm⟩, fun h => ⟨h.2.symm, h.1⟩⟩)

theorem unlink_raw {h : Heap N B} {b : B} {n m : N} (e1 : h.prev b n ≠ some m) (e2 : h.next b n ≠ some m) :
    raw (h.unlink b n) m = raw h m := by
  unfold Heap.unlink
  cases hp : h.prev b n with
  | none =>
    cases hn : h.next b n with
    | none => rfl
    | some q => rw [hn] at e2; exact setPrev_raw (fun e3 => e2 (by rw [e3]))
  | some p =>
    rw [hp] at e1
    cases hn : h.next b n with
    | none => exact setNext_raw (fun e3 => e1 (by rw [e3]))
    | some q =>
      rw [hn] at e2
      exact (setNext_raw (fun e3 => e1 (by rw [e3]))).trans (setPrev_raw (fun e3 => e2 (by rw [e3])))

theorem Lists.unlink {h : Heap N B} {L : B → List N} (r : Lists h L) {b : B} {n : N} (hn : n ∈ L b) :
    Lists (h.unlink b n) (upd L b ((L b).filter (· ≠ n))) := by
  have hp : ∀ q, h.prev b n = some q → Inc h b q ∧ Two h q := fun q e => r.inc b q (r.prev_mem hn e)
  have hx : ∀ q, h.next b n = some q → Inc h b q ∧ Two h q := fun q e => r.inc b q (r.next_mem hn e)
  refine r.remove hn (unlink_endA h b n) (unlink_endB h b n) ?_ ?_ ?_
  · intro c m ic _ _ _; exact unlink_next hp ic
  · intro c m ic _ _ _; exact unlink_prev hx ic
  · intro c; exact unlink_head h b c n

/-! ## The heap with its pool -/

/-- The lists, the unused pairs `P`, and all memory `U` allocated so far. -/
structure GoodP (h : PairHeap N B) (ls : List (N × B × B)) (P U : List N) : Prop where
  lists : Lists h.toHeap (fun b => owned b ls)
  once : (ls.map (·.1)).Nodup
  ends : ∀ l ∈ ls, h.endA l.1 = l.2.1 ∧ h.endB l.1 = l.2.2 ∧ l.2.1 ≠ l.2.2
  pool : Chain h.nextA h.pool P
  apart : ∀ l ∈ ls, l.1 ∉ P
  used : (∀ l ∈ ls, l.1 ∈ U) ∧ ∀ n ∈ P, n ∈ U

/-- Lists are not affected by the fields of a node that is in none. -/
theorem Lists.frame {h h' : Heap N B} {L : B → List N} (r : Lists h L) (n : N) (hn : ∀ b, n ∉ L b) (hh : h'.head = h.head)
    (e : ∀ m, m ≠ n → h'.endA m = h.endA m ∧ h'.endB m = h.endB m ∧ raw h' m = raw h m) : Lists h' L := by
  have hm : ∀ b, ∀ m ∈ L b, m ≠ n := fun b m hm e => hn b (e ▸ hm)
  constructor
  · intro b
    rw [hh]
    refine (r.seg b).congr ?_
    intro m hm'
    obtain ⟨e1, e2, e3⟩ := e m (hm b m hm')
    unfold raw at e3
    simp only [Prod.mk.injEq] at e3
    unfold Heap.next Heap.prev
    rw [e1, e3.1, e3.2.1, e3.2.2.1, e3.2.2.2]
    exact ⟨rfl, rfl⟩
  · intro b m hm'
    obtain ⟨e1, e2, e3⟩ := e m (hm b m hm')
    have := r.inc b m hm'
    unfold Inc Two at *
    rw [e1, e2]
    exact this

theorem recycle_fold (fresh : List N) : ∀ (h : PairHeap N B) (P : List N), Chain h.nextA h.pool P → fresh.Nodup →
    (∀ n ∈ fresh, n ∉ P) →
    let h' := fresh.foldl PairHeap.recycle h
    h'.endA = h.endA ∧ h'.endB = h.endB ∧ h'.head = h.head ∧ h'.prevA = h.prevA ∧ h'.nextB = h.nextB ∧ h'.prevB = h.prevB ∧
    (∀ m, m ∉ fresh → h'.nextA m = h.nextA m) ∧ Chain h'.nextA h'.pool (fresh.reverse ++ P) := by
  induction fresh with
  | nil => intro h P hc _ _; exact ⟨rfl, rfl, rfl, rfl, rfl, rfl, fun _ _ => rfl, hc⟩
  | cons x fresh ih =>
    intro h P hc nd hP
    have nd' := List.nodup_cons.1 nd
    have hxP : x ∉ P := hP x (by simp)
    have hc' : Chain (h.recycle x).nextA (h.recycle x).pool (x :: P) := by
      refine ⟨rfl, ?_⟩
      have e1 : (h.recycle x).nextA x = h.pool := by simp [PairHeap.recycle, upd]
      rw [e1]
      refine hc.congr ?_
      intro y hy
      simp only [PairHeap.recycle, upd]
      rw [if_neg (by rintro rfl; exact hxP hy)]
    obtain ⟨i1, i2, i3, i4, i5, i6, i7, i8⟩ := ih (h.recycle x) (x :: P) hc' nd'.2 (by
      intro n hn e
      rcases List.mem_cons.1 e with rfl | e
      · exact nd'.1 hn
      · exact hP n (by simp [hn]) e)
    refine ⟨i1, i2, i3, i4, i5, i6, ?_, ?_⟩
    · intro m hm
      have hm' : m ≠ x ∧ m ∉ fresh := by simpa using hm
      refine (i7 m hm'.2).trans ?_
      simp [PairHeap.recycle, upd, hm'.1]
    · simpa using i8

/-- What taking a pair from the pool gives: a pair in no list and not in the pool any more. -/
theorem GoodP.fromPool {h : PairHeap N B} {ls : List (N × B × B)} {P U : List N} (g : GoodP h ls P U) {fresh : N × List N}
    (nd : (fresh.1 :: fresh.2).Nodup) (hf : ∀ n ∈ fresh.1 :: fresh.2, n ∉ U) :
    ∃ P', GoodP (h.fromPool fresh).1 ls P' (fresh.1 :: fresh.2 ++ U) ∧ (∀ l ∈ ls, l.1 ≠ (h.fromPool fresh).2) ∧
      (h.fromPool fresh).2 ∉ P' ∧ (h.fromPool fresh).2 ∈ fresh.1 :: fresh.2 ++ U ∧ (h.fromPool fresh).1.head = h.head := by
  unfold PairHeap.fromPool
  cases hp : h.pool with
  | some n =>
    have hc := g.pool
    rw [hp] at hc
    cases P with
    | nil => exact absurd (show some n = none from hc) (by simp)
    | cons x P' =>
      obtain ⟨e, hc'⟩ := hc
      obtain rfl := Option.some.inj e
      have nd' : (n :: P').Nodup := Chain.nodup (show Chain h.nextA (some n) (n :: P') from ⟨rfl, hc'⟩)
      refine ⟨P', ⟨g.lists, g.once, g.ends, hc', fun l hl e => g.apart l hl (by simp [e]), ?_⟩, ?_, (List.nodup_cons.1 nd').1, ?_, rfl⟩
      · exact ⟨fun l hl => by simp [g.used.1 l hl], fun m hm => by simp [g.used.2 m (by simp [hm])]⟩
      · intro l hl e; exact g.apart l hl (by rw [e]; simp)
      · simp [g.used.2 n (by simp)]
  | none =>
    have hc := g.pool
    rw [hp] at hc
    obtain rfl : P = [] := by
      cases P with
      | nil => rfl
      | cons x P => exact absurd hc.1 (by simp)
    have nd' := List.nodup_cons.1 nd
    obtain ⟨i1, i2, i3, i4, i5, i6, i7, i8⟩ := recycle_fold fresh.2 h [] g.pool nd'.2 (by simp)
    have hls : ∀ l ∈ ls, l.1 ∉ fresh.2 := fun l hl e => hf l.1 (by simp [e]) (g.used.1 l hl)
    refine ⟨fresh.2.reverse, ⟨?_, g.once, ?_, by simpa using i8, ?_, ?_⟩, ?_, ?_, by simp, i3⟩
    · constructor
      · intro b
        rw [i3]
        refine (g.lists.seg b).congr ?_
        intro m hm
        obtain ⟨x, y, hl, _⟩ := mem_owned.1 hm
        unfold Heap.next Heap.prev
        rw [i1, i4, i5, i6, i7 m (hls _ hl)]
        exact ⟨rfl, rfl⟩
      · intro b m hm
        have := g.lists.inc b m hm
        unfold Inc Two at *
        rw [i1, i2]; exact this
    · intro l hl; rw [i1, i2]; exact g.ends l hl
    · intro l hl e; exact hls l hl (by simpa using e)
    · exact ⟨fun l hl => by simp [g.used.1 l hl], fun n hn => by
        have : n ∈ fresh.2 := by simpa using hn
        simp [this]⟩
    · intro l hl e
      have e : l.1 = fresh.1 := e
      exact hf fresh.1 (by simp) (e ▸ g.used.1 l hl)
    · simpa using nd'.1

/-- Writing a pair's own threads and pushing it on both lists at once is the same as two pushes. -/
theorem GoodP.insert {h : PairHeap N B} {ls : List (N × B × B)} {P U : List N} (g : GoodP h ls P U) {a b : B} (hab : a ≠ b)
    {fresh : N × List N} (nd : (fresh.1 :: fresh.2).Nodup) (hf : ∀ n ∈ fresh.1 :: fresh.2, n ∉ U) :
    ∃ n P', GoodP (h.insert a b fresh) ((n, a, b) :: ls) P' (fresh.1 :: fresh.2 ++ U) := by
  obtain ⟨P', g1, hn, hnP, hnU, hhead⟩ := g.fromPool nd hf
  set n := (h.fromPool fresh).2 with hndef
  set k := (h.fromPool fresh).1 with hkdef
  refine ⟨n, P', ?_⟩
  have hno : ∀ c, n ∉ owned c ls := Good.not_owned (h := h.toHeap) hn
  -- the heap with the pair's own fields written
  let h1 : Heap N B :=
    { k.toHeap with
      endA := upd k.endA n a, endB := upd k.endB n b
      nextA := upd k.nextA n (k.head a), prevA := upd k.prevA n none
      nextB := upd k.nextB n (k.head b), prevB := upd k.prevB n none }
  have hout : ∀ m, m ≠ n → h1.endA m = k.endA m ∧ h1.endB m = k.endB m ∧ raw h1 m = raw k.toHeap m := by
    intro m hm; simp [h1, upd, hm, raw]
  have l1 : Lists h1 (fun c => owned c ls) := g1.lists.frame n hno rfl hout
  have nA : h1.endA n = a := by simp [h1, upd]
  have nB : h1.endB n = b := by simp [h1, upd]
  have t1 : Two h1 n := by unfold Two; rw [nA, nB]; exact hab
  have ia : Inc h1 a n := Or.inl nA
  have ib : Inc h1 b n := Or.inr nB
  have pa : h1.prev a n = none := by unfold Heap.prev; rw [nA, if_pos rfl]; simp [h1, upd]
  have pb : h1.prev b n = none := by unfold Heap.prev; rw [nA, if_neg hab]; simp [h1, upd]
  have xa : h1.next a n = h1.head a := by unfold Heap.next; rw [nA, if_pos rfl]; simp [h1, upd]
  have xb : h1.next b n = h1.head b := by unfold Heap.next; rw [nA, if_neg hab]; simp [h1, upd]
  -- the result of the function
  let h2 := (h1.setHead a (some n)).setHead b (some n)
  let h3 := match h1.head a with
    | some m => h2.setPrev a m (some n)
    | none => h2
  let h4 := match h1.head b with
    | some m => h3.setPrev b m (some n)
    | none => h3
  have hres : h.insert a b fresh = { toHeap := h4, pool := k.pool } := by
    unfold PairHeap.insert
    simp only [h4, h3, h2, h1, ← hhead]
    rfl
  rw [hres]
  -- the same as pushing twice
  have hm1 : ∀ q, h1.head a = some q → Inc h1 a q ∧ Two h1 q := fun q hq => l1.inc a q (l1.head_mem hq)
  have hm2 : ∀ q, h1.head b = some q → Inc h1 b q ∧ Two h1 q := fun q hq => l1.inc b q (l1.head_mem hq)
  have e3A : h3.endA = h1.endA := by simp only [h3]; cases h1.head a <;> simp [h2]
  have e3B : h3.endB = h1.endB := by simp only [h3]; cases h1.head a <;> simp [h2]
  have e4A : h4.endA = h1.endA := by rw [← e3A]; simp only [h4]; cases h1.head b <;> simp
  have e4B : h4.endB = h1.endB := by rw [← e3B]; simp only [h4]; cases h1.head b <;> simp
  have v3n : ∀ c m, h3.next c m = h1.next c m := by intro c m; simp only [h3]; cases h1.head a <;> simp [h2]
  have v4n : ∀ c m, h4.next c m = h1.next c m := by intro c m; rw [← v3n]; simp only [h4]; cases h1.head b <;> simp
  have v3h : ∀ c, h3.head c = if c = b then some n else if c = a then some n else h1.head c := by
    intro c; simp only [h3]; cases h1.head a <;> simp [h2, setHead_head]
  have v4h : ∀ c, h4.head c = if c = b then some n else if c = a then some n else h1.head c := by
    intro c; rw [← v3h]; simp only [h4]; cases h1.head b <;> simp
  have v3p : ∀ c m, Inc h1 c m → h3.prev c m = if h1.head a = some m ∧ c = a then some n else h1.prev c m := by
    intro c m ic
    simp only [h3]
    cases hh : h1.head a with
    | none => simp [h2]
    | some q =>
      obtain ⟨i, t⟩ := hm1 q hh
      simp only []
      rw [setPrev_prev (h := h2) (some n) (t.of rfl rfl) (i.of rfl rfl) (ic.of rfl rfl)]
      simp only [h2, setHead_prev]
      congr 1
      exact propext ⟨fun h => ⟨by rw [h.1], h.2⟩, fun h => ⟨(Option.some.inj h.1).symm, h.2⟩⟩
  have v4p : ∀ c m, Inc h1 c m → h4.prev c m = if h1.head b = some m ∧ c = b then some n else
      if h1.head a = some m ∧ c = a then some n else h1.prev c m := by
    intro c m ic
    simp only [h4]
    cases hh : h1.head b with
    | none => simp [v3p c m ic]
    | some q =>
      obtain ⟨i, t⟩ := hm2 q hh
      simp only []
      rw [setPrev_prev (h := h3) (some n) (t.of e3A e3B) (i.of e3A e3B) (ic.of e3A e3B), v3p c m ic]
      congr 1
      exact propext ⟨fun h => ⟨by rw [h.1], h.2⟩, fun h => ⟨(Option.some.inj h.1).symm, h.2⟩⟩
  -- two pushes on h1
  have L1 := l1.push (hno a) ia t1 pa
  have ib1 : Inc (h1.push a n) b n := ib.of (by simp) (by simp)
  have t2 : Two (h1.push a n) n := t1.of (by simp) (by simp)
  have hnb : n ∉ upd (fun c => owned c ls) a (n :: owned a ls) b := by simp only [upd, if_neg hab.symm]; exact hno b
  have pb1 : (h1.push a n).prev b n = none := by rw [push_prev hm1 ib, if_neg (fun e => hab e.2.symm)]; exact pb
  have L2 := L1.push hnb ib1 t2 pb1
  have eL : upd (upd (fun c => owned c ls) a (n :: owned a ls)) b (n :: upd (fun c => owned c ls) a (n :: owned a ls) b)
      = fun c => owned c ((n, a, b) :: ls) := by
    funext c
    rw [owned_cons]
    unfold upd
    by_cases e1 : c = b
    · subst e1; simp [hab.symm]
    · by_cases e2 : c = a
      · subst e2; simp [e1]
      · simp [e1, e2, Ne.symm e1, Ne.symm e2]
  rw [eL] at L2
  have hb1 : (h1.push a n).head b = h1.head b := by rw [push_head, if_neg hab.symm]
  have hm3 : ∀ q, (h1.push a n).head b = some q → Inc (h1.push a n) b q ∧ Two (h1.push a n) q := by
    intro q hq; rw [hb1] at hq
    exact ⟨(hm2 q hq).1.of (by simp) (by simp), (hm2 q hq).2.of (by simp) (by simp)⟩
  have L4 : Lists h4 (fun c => owned c ((n, a, b) :: ls)) := by
    constructor
    · intro c
      have hhd : h4.head c = ((h1.push a n).push b n).head c := by
        rw [v4h, push_head, push_head]
      rw [hhd]
      refine (L2.seg c).congr ?_
      intro m hm
      have ic : Inc h1 c m := by
        have := (L2.inc c m hm).1
        exact this.of (by simp) (by simp)
      have ic1 : Inc (h1.push a n) c m := ic.of (by simp) (by simp)
      refine ⟨?_, ?_⟩
      · rw [v4n, push_next t2 ib1 ic1, push_next t1 ia ic, hb1]
        by_cases e1 : m = n ∧ c = b
        · rw [if_pos e1, e1.1, e1.2, xb]
        · rw [if_neg e1]
          by_cases e2 : m = n ∧ c = a
          · rw [if_pos e2, e2.1, e2.2, xa]
          · rw [if_neg e2]
      · rw [v4p c m ic, push_prev hm3 ic1, push_prev hm1 ic, hb1]
    · intro c m hm
      have := L2.inc c m hm
      exact ⟨this.1.of (by rw [e4A]; simp) (by rw [e4B]; simp), this.2.of (by rw [e4A]; simp) (by rw [e4B]; simp)⟩
  have r4 : ∀ m ∈ P', h4.nextA m = k.nextA m := by
    intro m hm
    have hmn : m ≠ n := fun e => hnP (e ▸ hm)
    have hml : ∀ l ∈ ls, l.1 ≠ m := fun l hl e => g1.apart l hl (e ▸ hm)
    have hmo := Good.not_owned (h := h.toHeap) hml
    have f2 : raw h2 m = raw h1 m := rfl
    have f3 : raw h3 m = raw h2 m := by
      simp only [h3]
      cases hh : h1.head a with
      | none => rfl
      | some q => exact setPrev_raw (fun e => hmo a (l1.head_mem (e ▸ hh)))
    have f4 : raw h4 m = raw h3 m := by
      simp only [h4]
      cases hh : h1.head b with
      | none => rfl
      | some q => exact setPrev_raw (fun e => hmo b (l1.head_mem (e ▸ hh)))
    have := (f4.trans (f3.trans f2)).trans (hout m hmn).2.2
    unfold raw at this
    exact (Prod.mk.inj this).1
  refine ⟨L4, ?_, ?_, g1.pool.congr r4, ?_, ?_⟩
  · simp only [List.map_cons, List.nodup_cons]
    refine ⟨?_, g.once⟩
    intro e
    obtain ⟨l, hl, e⟩ := List.mem_map.1 e
    exact hn l hl e
  · intro l hl
    show h4.endA l.1 = _ ∧ h4.endB l.1 = _ ∧ _
    rw [e4A, e4B]
    rcases List.mem_cons.1 hl with rfl | hl
    · exact ⟨nA, nB, hab⟩
    · obtain ⟨o1, o2, _⟩ := hout l.1 (hn l hl)
      rw [o1, o2]; exact g1.ends l hl
  · intro l hl
    rcases List.mem_cons.1 hl with rfl | hl
    · exact hnP
    · exact g1.apart l hl
  · refine ⟨?_, g1.used.2⟩
    intro l hl
    rcases List.mem_cons.1 hl with rfl | hl
    · exact hnU
    · exact g1.used.1 l hl

/-! ## Clearing all pairs of a leaf -/

/-- The state inside the loop: `ls` are the links still in place, those of `leaf` only seen from the other side. -/
structure Mid (h : PairHeap N B) (leaf : B) (ls : List (N × B × B)) (P U : List N) : Prop where
  lists : Lists h.toHeap (fun c => if c = leaf then [] else owned c ls)
  once : (ls.map (·.1)).Nodup
  ends : ∀ l ∈ ls, h.endA l.1 = l.2.1 ∧ h.endB l.1 = l.2.2 ∧ l.2.1 ≠ l.2.2
  pool : Chain h.nextA h.pool P
  apart : ∀ l ∈ ls, l.1 ∉ P
  used : (∀ l ∈ ls, l.1 ∈ U) ∧ ∀ n ∈ P, n ∈ U

theorem link_eq {h : PairHeap N B} {ls : List (N × B × B)}
    (ends : ∀ l ∈ ls, h.endA l.1 = l.2.1 ∧ h.endB l.1 = l.2.2 ∧ l.2.1 ≠ l.2.2) {n : N} {x y x' y' : B}
    (h1 : (n, x, y) ∈ ls) (h2 : (n, x', y') ∈ ls) : x = x' ∧ y = y' := by
  have a := ends _ h1
  have b := ends _ h2
  simp only at a b
  exact ⟨by rw [← a.1, b.1], by rw [← a.2.1, b.2.1]⟩

theorem Mid.step {h : PairHeap N B} {leaf other : B} {ls : List (N × B × B)} {P U : List N} (g : Mid h leaf ls P U) {n : N} {x y : B}
    (hl : (n, x, y) ∈ ls) (hx : (x = leaf ∧ y = other) ∨ (x = other ∧ y = leaf)) {p : Option N} {rem : List N}
    (hrem : ∀ m ∈ rem, m ≠ n ∧ Inc h.toHeap leaf m) (hc : Chain (h.next leaf) p rem) :
    let h' := PairHeap.recycle { h with toHeap := h.toHeap.unlink other n } n
    Mid h' leaf (ls.filter (·.1 ≠ n)) (n :: P) U ∧ Chain (h'.next leaf) p rem ∧ h'.endA = h.endA ∧ h'.endB = h.endB := by
  intro h'
  obtain ⟨eA, eB, hxy⟩ := g.ends _ hl
  simp only at eA eB hxy
  have hne : other ≠ leaf := by
    rcases hx with ⟨rfl, rfl⟩ | ⟨rfl, rfl⟩
    · exact hxy.symm
    · exact hxy
  have mo : n ∈ owned other ls := mem_owned.2 ⟨x, y, hl, by tauto⟩
  have mo' : n ∈ (fun c => if c = leaf then [] else owned c ls) other := by simp only [if_neg hne]; exact mo
  have l1 := g.lists.unlink mo'
  have eL : upd (fun c => if c = leaf then [] else owned c ls) other (((fun c => if c = leaf then [] else owned c ls) other).filter (· ≠ n))
      = fun c => if c = leaf then [] else owned c (ls.filter (·.1 ≠ n)) := by
    funext c
    simp only [upd, if_neg hne]
    by_cases e1 : c = other
    · subst e1; rw [if_pos rfl, if_neg hne, owned_remove]
    · rw [if_neg e1]
      by_cases e2 : c = leaf
      · rw [if_pos e2, if_pos e2]
      · rw [if_neg e2, if_neg e2, owned_remove, List.filter_eq_self.2]
        intro z hz
        simp only [ne_eq, decide_not, Bool.not_eq_true', decide_eq_false_iff_not]
        rintro rfl
        obtain ⟨x', y', h1, h2⟩ := mem_owned.1 hz
        obtain ⟨e3, e4⟩ := link_eq g.ends hl h1
        subst e3; subst e4
        rcases hx with ⟨hx1, hx2⟩ | ⟨hx1, hx2⟩ <;> rcases h2 with h2 | h2
        · exact e2 (by rw [← h2, hx1])
        · exact e1 (by rw [← h2, hx2])
        · exact e1 (by rw [← h2, hx1])
        · exact e2 (by rw [← h2, hx2])
  rw [eL] at l1
  have hp : ∀ q, h.prev other n = some q → Inc h.toHeap other q ∧ Two h.toHeap q := fun q e => g.lists.inc other q (g.lists.prev_mem mo' e)
  have hnx : ∀ q, h.next other n = some q → q ∈ owned other ls := fun q e => by
    have := g.lists.next_mem mo' e
    simpa only [if_neg hne] using this
  have hpv : ∀ q, h.prev other n = some q → q ∈ owned other ls := fun q e => by
    have := g.lists.prev_mem mo' e
    simpa only [if_neg hne] using this
  have enA : h'.endA = h.endA := unlink_endA h.toHeap other n
  have enB : h'.endB = h.endB := unlink_endB h.toHeap other n
  have hnn : ∀ c, n ∉ (fun c => if c = leaf then [] else owned c (ls.filter (·.1 ≠ n))) c := by
    intro c e
    simp only at e
    split at e
    · simp at e
    · rw [owned_remove] at e; simp at e
  have l2 : Lists h'.toHeap (fun c => if c = leaf then [] else owned c (ls.filter (·.1 ≠ n))) := by
    refine l1.frame n hnn rfl ?_
    intro m hm
    refine ⟨rfl, rfl, ?_⟩
    unfold raw
    simp [h', PairHeap.recycle, upd, hm]
  have nP : n ∉ P := g.apart _ hl
  have hPraw : ∀ m ∈ P, (h.toHeap.unlink other n).nextA m = h.nextA m := by
    intro m hm
    have hml : m ∉ owned other ls := by
      intro e
      obtain ⟨x', y', h1, _⟩ := mem_owned.1 e
      exact g.apart _ h1 hm
    have := unlink_raw (h := h.toHeap) (b := other) (n := n) (m := m) (fun e => hml (hpv _ e)) (fun e => hml (hnx _ e))
    unfold raw at this
    exact (Prod.mk.inj this).1
  refine ⟨⟨l2, ?_, ?_, ?_, ?_, ?_⟩, ?_, enA, enB⟩
  · exact g.once.sublist ((List.filter_sublist).map _)
  · intro l hl'
    rw [enA, enB]
    exact g.ends l (List.mem_filter.1 hl').1
  · refine ⟨rfl, ?_⟩
    have e1 : h'.nextA n = h.pool := by simp [h', PairHeap.recycle, upd]
    rw [e1]
    refine g.pool.congr ?_
    intro m hm
    have hmn : m ≠ n := fun e => nP (e ▸ hm)
    simp only [h', PairHeap.recycle, upd, if_neg hmn]
    exact hPraw m hm
  · intro l hl' e
    obtain ⟨l1', l2'⟩ := List.mem_filter.1 hl'
    rcases List.mem_cons.1 e with e | e
    · simp [e] at l2'
    · exact g.apart l l1' e
  · refine ⟨fun l hl' => g.used.1 l (List.mem_filter.1 hl').1, ?_⟩
    intro m hm
    rcases List.mem_cons.1 hm with rfl | hm
    · exact g.used.1 _ hl
    · exact g.used.2 m hm
  · refine hc.congr ?_
    intro m hm
    obtain ⟨hmn, im⟩ := hrem m hm
    have e1 : h'.next leaf m = (h.toHeap.unlink other n).next leaf m := by
      unfold Heap.next
      simp only [h', PairHeap.recycle, upd, if_neg hmn]
    rw [e1, unlink_next hp im, if_neg (fun e => hne e.1.symm)]

theorem filter_fst_ne {ls : List (N × B × B)} {n : N} {S : List N} :
    (ls.filter (·.1 ≠ n)).filter (fun l => decide (l.1 ∉ S)) = ls.filter (fun l => decide (l.1 ∉ n :: S)) := by
  rw [List.filter_filter]
  apply List.filter_congr
  intro l _
  simp only [ne_eq, List.mem_cons, not_or]
  by_cases e : l.1 = n <;> by_cases e' : l.1 ∈ S <;> simp [e, e']

theorem clearLoop_spec (leaf : B) : ∀ (rem : List N) (p : Option N) (fuel : Nat) (h : PairHeap N B) (ls : List (N × B × B)) (P U : List N),
    Mid h leaf ls P U → Chain (h.next leaf) p rem → rem.Nodup → (∀ n, n ∈ rem ↔ n ∈ owned leaf ls) → rem.length ≤ fuel →
    ∃ h' P', PairHeap.clearLoop leaf fuel p h = some h' ∧
      Mid h' leaf (ls.filter (fun l => decide (l.1 ∉ rem))) P' U := by
  intro rem
  induction rem with
  | nil =>
    intro p fuel h ls P U g hc _ _ _
    obtain rfl : p = none := hc
    refine ⟨h, P, by cases fuel <;> rfl, ?_⟩
    rw [List.filter_eq_self.2 (by simp)]
    exact g
  | cons n rem ih =>
    intro p fuel h ls P U g hc nd hm hf
    obtain ⟨rfl, hc'⟩ := hc
    cases fuel with
    | zero => simp at hf
    | succ fuel =>
      have nd' := List.nodup_cons.1 nd
      obtain ⟨x, y, hl, hxy⟩ := mem_owned.1 ((hm n).1 (by simp))
      obtain ⟨eA, eB, hne⟩ := g.ends _ hl
      simp only at eA eB hne
      have hrem : ∀ m ∈ rem, m ≠ n ∧ Inc h.toHeap leaf m := by
        intro m hmr
        refine ⟨fun e => nd'.1 (e ▸ hmr), ?_⟩
        obtain ⟨x', y', hl', hxy'⟩ := mem_owned.1 ((hm m).1 (by simp [hmr]))
        obtain ⟨eA', eB', _⟩ := g.ends _ hl'
        simp only at eA' eB'
        unfold Inc
        rw [eA', eB']; exact hxy'
      have hm' : ∀ m, m ∈ rem ↔ m ∈ owned leaf (ls.filter (·.1 ≠ n)) := by
        intro m
        rw [owned_remove, List.mem_filter, ← hm m]
        simp only [List.mem_cons, ne_eq, decide_not, Bool.not_eq_true', decide_eq_false_iff_not]
        constructor
        · intro e; exact ⟨Or.inr e, fun e2 => nd'.1 (e2 ▸ e)⟩
        · rintro ⟨e | e, e2⟩
          · exact absurd e e2
          · exact e
      simp only [PairHeap.clearLoop]
      by_cases e : h.endA n = leaf
      · rw [if_pos e]
        have hx : (x = leaf ∧ y = h.endB n) ∨ (x = h.endB n ∧ y = leaf) := Or.inl ⟨by rw [← eA, e], eB.symm⟩
        have hnx : h.nextA n = h.next leaf n := by unfold Heap.next; rw [if_pos e]
        rw [hnx]
        obtain ⟨g', c', _, _⟩ := g.step hl hx hrem hc'
        obtain ⟨h'', P', r1, r2⟩ := ih _ fuel _ _ _ _ g' c' nd'.2 hm' (by simpa using hf)
        refine ⟨h'', P', r1, ?_⟩
        rw [filter_fst_ne] at r2
        exact r2
      · rw [if_neg e]
        have hy : y = leaf := by
          rcases hxy with h1 | h1
          · exact absurd (by rw [eA, h1]) e
          · exact h1
        have hx : (x = leaf ∧ y = h.endA n) ∨ (x = h.endA n ∧ y = leaf) := Or.inr ⟨eA.symm, hy⟩
        have hnx : h.nextB n = h.next leaf n := by unfold Heap.next; rw [if_neg e]
        rw [hnx]
        obtain ⟨g', c', _, _⟩ := g.step hl hx hrem hc'
        obtain ⟨h'', P', r1, r2⟩ := ih _ fuel _ _ _ _ g' c' nd'.2 hm' (by simpa using hf)
        refine ⟨h'', P', r1, ?_⟩
        rw [filter_fst_ne] at r2
        exact r2

theorem GoodP.clear {h : PairHeap N B} {ls : List (N × B × B)} {P U : List N} (g : GoodP h ls P U) (leaf : B) (fuel : Nat)
    (hf : (owned leaf ls).length ≤ fuel) :
    ∃ h' P', h.clear leaf fuel = some h' ∧ GoodP h' (ls.filter fun l => ¬ (l.2.1 = leaf ∨ l.2.2 = leaf)) P' U := by
  have m0 : Mid { h with toHeap := h.toHeap.setHead leaf none } leaf ls P U := by
    refine ⟨⟨?_, ?_⟩, g.once, g.ends, g.pool, g.apart, g.used⟩
    · intro c
      simp only [setHead_head]
      by_cases e : c = leaf
      · simp only [e, if_true]; rfl
      · simp only [if_neg e]; exact g.lists.seg c
    · intro c m hm
      by_cases e : c = leaf
      · simp [e] at hm
      · rw [if_neg e] at hm; exact g.lists.inc c m hm
  obtain ⟨h', P', r1, r2⟩ := clearLoop_spec leaf (owned leaf ls) (h.head leaf) fuel _ ls P U m0 (g.lists.seg leaf).chain
    (g.lists.nodup leaf) (fun n => Iff.rfl) hf
  refine ⟨h', P', r1, ?_⟩
  have ef : ls.filter (fun l => decide (l.1 ∉ owned leaf ls)) = ls.filter fun l => ¬ (l.2.1 = leaf ∨ l.2.2 = leaf) := by
    apply List.filter_congr
    rintro ⟨n, x, y⟩ hl
    apply decide_eq_decide.2
    rw [not_iff_not]
    constructor
    · intro e
      obtain ⟨x', y', h1, h2⟩ := mem_owned.1 e
      obtain ⟨rfl, rfl⟩ := link_eq g.ends hl h1
      exact h2
    · intro e; exact mem_owned.2 ⟨x, y, hl, e⟩
  rw [ef] at r2
  have eo : (fun c => if c = leaf then [] else owned c (ls.filter fun l => ¬ (l.2.1 = leaf ∨ l.2.2 = leaf)))
      = fun c => owned c (ls.filter fun l => ¬ (l.2.1 = leaf ∨ l.2.2 = leaf)) := by
    funext c
    split
    · rename_i e
      subst e
      unfold owned
      rw [List.filter_filter, List.filter_eq_nil_iff.2]
      · rfl
      · intro l _; simp only [Bool.and_eq_true, decide_eq_true_eq]; tauto
    · rfl
  have L := r2.lists
  rw [eo] at L
  exact ⟨L, r2.once, r2.ends, r2.pool, r2.apart, r2.used⟩

/-! ## C74 -/

/-- What the program does for each operation; clearing walks a list of at most `fuel` pairs. -/
def pairRun (fuel : Nat) (h : PairHeap N B) : List (PairOp N B) → Option (PairHeap N B)
  | [] => some h
  | .insert a b fresh :: ops => pairRun fuel (h.insert a b fresh) ops
  | .clear x :: ops => match h.clear x fuel with
    | none => none
    | some h' => pairRun fuel h' ops

/-- A heap with no pairs and an empty pool. -/
def noPairs (eA eB : N → B) : PairHeap N B := { toHeap := emptyHeap eA eB, pool := none }

theorem pairRun_spec (fuel : Nat) : ∀ (ops : List (PairOp N B)) (h : PairHeap N B) (ls : List (N × B × B)) (P U : List N),
    GoodP h ls P U → (∀ a b f, PairOp.insert a b f ∈ ops → a ≠ b) → (ops.flatMap PairOp.allocated).Nodup →
    (∀ n ∈ ops.flatMap PairOp.allocated, n ∉ U) → ls.length + ops.length ≤ fuel →
    ∃ h' ls' P' U', pairRun fuel h ops = some h' ∧ GoodP h' ls' P' U' ∧ ls'.map (·.2) = ops.foldl pairStep (ls.map (·.2)) ∧
      ls'.length ≤ fuel := by
  intro ops
  induction ops with
  | nil => intro h ls P U g _ _ _ hfl; exact ⟨h, ls, P, U, rfl, g, rfl, by simpa using hfl⟩
  | cons op ops ih =>
    intro h ls P U g hab nd hU hfl
    cases op with
    | insert a b fresh =>
      have nd1 : (fresh.1 :: fresh.2 ++ ops.flatMap PairOp.allocated).Nodup := nd
      obtain ⟨n1, n2, n3⟩ := List.nodup_append.1 nd1
      obtain ⟨n, P', g'⟩ := g.insert (hab a b fresh (by simp)) n1 (fun n hn => hU n (by
        rw [List.flatMap_cons]; exact List.mem_append.2 (Or.inl hn)))
      obtain ⟨h', ls', P'', U', r⟩ := ih _ _ _ _ g' (fun a b f hf => hab a b f (by simp [hf])) n2 (by
        intro m hm e
        rcases List.mem_append.1 e with e | e
        · exact n3 m e m hm rfl
        · exact hU m (by rw [List.flatMap_cons]; exact List.mem_append.2 (Or.inr hm)) e) (by simp at hfl ⊢; omega)
      exact ⟨h', ls', P'', U', r⟩
    | clear x =>
      obtain ⟨h', P', r1, g'⟩ := g.clear x fuel (by
        unfold owned
        rw [List.length_map]
        exact (List.length_filter_le _ _).trans (by simp at hfl; omega))
      have hlen := List.length_filter_le (fun l : N × B × B => decide (¬ (l.2.1 = x ∨ l.2.2 = x))) ls
      obtain ⟨h'', ls', P'', U', r2, r3, r4, r5⟩ := ih _ _ _ _ g' (fun a b f hf => hab a b f (by simp [hf])) (by simpa [PairOp.allocated] using nd)
        (fun m hm => hU m (by simpa [PairOp.allocated] using hm)) (by simp at hfl; omega)
      refine ⟨h'', ls', P'', U', ?_, r3, ?_, r5⟩
      · simp only [pairRun, r1]; exact r2
      · rw [r4]
        simp only [List.foldl_cons, pairStep]
        congr 1
        rw [List.filter_map]
        rfl

/-- **C74** After any history of remembering pairs of different leaves and forgetting all pairs of a leaf, with pairs
taken from and returned to the pool, the list of every leaf holds exactly the pairs with that leaf that were
remembered and not forgotten since, newest first, and both operations end. -/
theorem C74_pairs (eA eB : N → B) (ops : List (PairOp N B)) (hab : ∀ a b f, PairOp.insert a b f ∈ ops → a ≠ b)
    (nd : (ops.flatMap PairOp.allocated).Nodup) (fuel : Nat) (hf : ops.length ≤ fuel) :
    ∃ h, pairRun fuel (noPairs eA eB) ops = some h ∧
      ∀ x, ∃ visited, h.walk x fuel (h.head x) = some visited ∧ visited.Nodup ∧
        visited.map (fun n => (h.endA n, h.endB n)) =
          (ops.foldl pairStep []).filter (fun p => p.1 = x ∨ p.2 = x) := by
  have g0 : GoodP (noPairs eA eB) ([] : List (N × B × B)) [] [] := by
    refine ⟨(good_empty eA eB).lists, List.nodup_nil, by simp, rfl, by simp, by simp⟩
  obtain ⟨h, ls, P, U, r1, g, r2, r3⟩ := pairRun_spec fuel ops _ _ _ _ g0 hab nd (by simp) (by simpa using hf)
  refine ⟨h, r1, fun x => ⟨owned x ls, ?_, g.lists.nodup x, ?_⟩⟩
  · refine Heap.walk_of_chain _ x _ _ fuel (g.lists.seg x).chain ?_
    unfold owned
    rw [List.length_map]
    exact (List.length_filter_le _ _).trans r3
  · have : (ops.foldl pairStep ([] : List (B × B))) = ls.map (·.2) := by rw [r2]; rfl
    rw [this]
    unfold owned
    rw [List.map_map, List.filter_map]
    apply List.map_congr_left
    intro l hl
    have := g.ends l (List.mem_filter.1 hl).1
    simp only [Function.comp]
    rw [this.1, this.2.1]

/-- **C74** What clearing does to the remembered pairs is what the broad-phase model does. -/
theorem C74_model (ps : List (Nat × Nat)) (x : Nat) :
    pairStep ps (PairOp.clear x : PairOp Nat Nat) = BBTree.pairsClear x ps := by
  unfold pairStep BBTree.pairsClear
  apply List.filter_congr
  intro p _
  by_cases e1 : p.1 = x <;> by_cases e2 : p.2 = x <;> simp [e1, e2]

/-! ### The hypotheses are met -/

/-- Three leaves; the pairs of leaf 1 are forgotten and one is remembered again from the pool. -/
def exPairs : List (PairOp Nat Nat) := [.insert 0 1 (0, [1, 2]), .insert 2 1 (10, [11]), .insert 2 0 (20, []), .clear 1, .insert 1 2 (30, [])]

example : (∀ a b f, PairOp.insert a b f ∈ exPairs → a ≠ b) ∧ (exPairs.flatMap PairOp.allocated).Nodup := by
  refine ⟨?_, by decide⟩
  intro a b f h
  simp [exPairs] at h
  omega

example : ((pairRun 5 (noPairs (fun _ => 9) (fun _ => 9)) exPairs).bind fun h => h.walk 2 5 (h.head 2)) = some [0, 1] ∧
    exPairs.foldl pairStep [] = [(1, 2), (2, 0)] := by decide

end Threads
end Cm
