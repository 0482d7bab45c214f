import Verif.Proofs.Threads
import Verif.Spec.Links
/-! # C31: the contact lists of bodies -/
set_option linter.unusedSectionVars false
set_option linter.unusedSimpArgs false
set_option linter.unusedVariables false
set_option linter.unnecessarySeqFocus false

namespace Cm
namespace Threads
open Spec
variable {N B : Type} [DecidableEq N] [DecidableEq B]

theorem mem_owned {b : B} {ls : List (N × B × B)} {n : N} :
    n ∈ owned b ls ↔ ∃ x y, (n, x, y) ∈ ls ∧ (x = b ∨ y = b) := by
  unfold owned
  rw [List.mem_map]
  constructor
  · rintro ⟨⟨m, x, y⟩, h, rfl⟩
    have := List.mem_filter.1 h
    exact ⟨x, y, this.1, by simpa using this.2⟩
  · rintro ⟨x, y, h, e⟩
    exact ⟨(n, x, y), List.mem_filter.2 ⟨h, by simpa using e⟩, rfl⟩

theorem owned_remove (b : B) (ls : List (N × B × B)) (n : N) :
    owned b (ls.filter (·.1 ≠ n)) = (owned b ls).filter (· ≠ n) := by
  unfold owned
  rw [List.filter_map, List.filter_filter, List.filter_filter]
  congr 1
  apply List.filter_congr
  intro x _
  simp [Bool.and_comm]

theorem owned_cons (c : B) (n : N) (a b : B) (ls : List (N × B × B)) :
    owned c ((n, a, b) :: ls) = if a = c ∨ b = c then n :: owned c ls else owned c ls := by
  unfold owned
  rw [List.filter_cons]
  by_cases h : a = c ∨ b = c
  · simp [h]
  · simp [h]

/-! ## Fields of a node -/

/-- All link fields of a node. -/
def raw (h : Heap N B) (m : N) : Option N × Option N × Option N × Option N := (h.nextA m, h.prevA m, h.nextB m, h.prevB m)

theorem setNext_raw {h : Heap N B} {b : B} {n m : N} {v : Option N} (e : m ≠ n) : raw (h.setNext b n v) m = raw h m := by
  unfold Heap.setNext raw; split <;> simp [upd, e]
theorem setPrev_raw {h : Heap N B} {b : B} {n m : N} {v : Option N} (e : m ≠ n) : raw (h.setPrev b n v) m = raw h m := by
  unfold Heap.setPrev raw; split <;> simp [upd, e]

theorem push_raw {h : Heap N B} {b : B} {n m : N} (e : m ≠ n) (e2 : h.head b ≠ some m) : raw (h.push b n) m = raw h m := by
  unfold Heap.push
  cases hh : h.head b with
  | none => exact setNext_raw e
  | some q =>
    rw [hh] at e2
    exact (setPrev_raw (fun e3 => e2 (by rw [e3]))).trans (setNext_raw e)

theorem unthreadOne_raw {h : Heap N B} {b : B} {n m : N} (e : m ≠ n) (e1 : h.prev b n ≠ some m) (e2 : h.next b n ≠ some m) :
    raw (h.unthreadOne b n) m = raw h m := by
  rw [unthreadOne_eq, setPrev_raw e, setNext_raw e]
  unfold cut
  cases hp : h.prev b n with
  | none =>
    cases hn : h.next b n with
    | none => by_cases e3 : h.head b = some n <;> simp [e3] <;> rfl
    | some q =>
      rw [hn] at e2
      refine (setPrev_raw (fun e3 => e2 (by rw [e3]))).trans ?_
      by_cases e3 : h.head b = some n <;> simp [e3] <;> rfl
  | some p =>
    rw [hp] at e1
    cases hn : h.next b n with
    | none => exact setNext_raw (fun e3 => e1 (by rw [e3]))
    | some q =>
      rw [hn] at e2
      exact (setPrev_raw (fun e3 => e2 (by rw [e3]))).trans (setNext_raw (fun e3 => e1 (by rw [e3])))

theorem raw_next {h : Heap N B} {b : B} {n : N} (e : raw h n = (none, none, none, none)) : h.next b n = none ∧ h.prev b n = none := by
  unfold raw at e
  simp only [Prod.mk.injEq] at e
  unfold Heap.next Heap.prev
  constructor <;> split <;> simp [e]

/-! ## C31 -/

/-- The heap implements the links. -/
structure Good (h : Heap N B) (ls : List (N × B × B)) : Prop where
  lists : Lists h (fun b => owned b ls)
  once : (ls.map (·.1)).Nodup
  ends : ∀ l ∈ ls, h.endA l.1 = l.2.1 ∧ h.endB l.1 = l.2.2 ∧ l.2.1 ≠ l.2.2
  rest : ∀ n, (∀ l ∈ ls, l.1 ≠ n) → raw h n = (none, none, none, none)

theorem Good.not_owned {h : Heap N B} {ls : List (N × B × B)} {n : N} (hn : ∀ l ∈ ls, l.1 ≠ n) (b : B) : n ∉ owned b ls := by
  intro e
  obtain ⟨x, y, e1, _⟩ := mem_owned.1 e
  exact hn _ e1 rfl

theorem Good.attach {h : Heap N B} {ls : List (N × B × B)} (g : Good h ls) {n : N} {a b : B} (hab : a ≠ b)
    (hn : ∀ l ∈ ls, l.1 ≠ n) : Good (h.attach n a b) ((n, a, b) :: ls) := by
  set h0 : Heap N B := { h with endA := upd h.endA n a, endB := upd h.endB n b } with hh0
  have hno := Good.not_owned (h := h) hn
  have e0A : ∀ m, m ≠ n → h0.endA m = h.endA m := fun m hm => by simp [hh0, upd, hm]
  have e0B : ∀ m, m ≠ n → h0.endB m = h.endB m := fun m hm => by simp [hh0, upd, hm]
  have nA : h0.endA n = a := by simp [hh0, upd]
  have nB : h0.endB n = b := by simp [hh0, upd]
  have hmn : ∀ c, ∀ m ∈ owned c ls, m ≠ n := fun c m hm e => hno c (e ▸ hm)
  have l0 : Lists h0 (fun c => owned c ls) := by
    constructor
    · intro c
      refine (g.lists.seg c).congr ?_
      intro m hm
      unfold Heap.next Heap.prev
      rw [e0A m (hmn c m hm)]
      exact ⟨rfl, rfl⟩
    · intro c m hm
      have := g.lists.inc c m hm
      unfold Inc Two at *
      rw [e0A m (hmn c m hm), e0B m (hmn c m hm)]
      exact this
  have rw0 : raw h0 n = (none, none, none, none) := g.rest n hn
  have t0 : Two h0 n := by unfold Two; rw [nA, nB]; exact hab
  have ia : Inc h0 a n := Or.inl nA
  have ib : Inc h0 b n := Or.inr nB
  have l1 := l0.push (hno a) ia t0 (raw_next rw0).2
  have hm1 : ∀ q, h0.head a = some q → Inc h0 a q ∧ Two h0 q := fun q hq => l0.inc a q (l0.head_mem hq)
  have ib1 : Inc (h0.push a n) b n := ib.of (by simp) (by simp)
  have t1 : Two (h0.push a n) n := t0.of (by simp) (by simp)
  have hnb : n ∉ upd (fun c => owned c ls) a (n :: owned a ls) b := by
    simp only [upd, if_neg hab.symm]; exact hno b
  have hp1 : (h0.push a n).prev b n = none := by
    rw [push_prev hm1 ib, if_neg (fun e => hab e.2.symm)]
    exact (raw_next rw0).2
  have l2 := l1.push hnb ib1 t1 hp1
  have eL : upd (upd (fun c => owned c ls) a (n :: owned a ls)) b (n :: upd (fun c => owned c ls) a (n :: owned a ls) b)
      = fun c => owned c ((n, a, b) :: ls) := by
    funext c
    rw [owned_cons]
    unfold upd
    by_cases e1 : c = b
    · subst e1; simp [hab.symm]
    · by_cases e2 : c = a
      · subst e2; simp [e1]
      · simp [e1, e2, Ne.symm e1, Ne.symm e2]
  rw [eL] at l2
  have hat : h.attach n a b = (h0.push a n).push b n := rfl
  rw [hat]
  refine ⟨l2, ?_, ?_, ?_⟩
  · simp only [List.map_cons, List.nodup_cons]
    refine ⟨?_, g.once⟩
    intro e
    obtain ⟨l, hl, e⟩ := List.mem_map.1 e
    exact hn l hl e
  · intro l hl
    simp only [push_endA, push_endB]
    rcases List.mem_cons.1 hl with rfl | hl
    · exact ⟨nA, nB, hab⟩
    · rw [e0A _ (hn l hl), e0B _ (hn l hl)]
      exact g.ends l hl
  · intro m hm
    have hmn' : m ≠ n := fun e => hm (n, a, b) (by simp) e.symm
    have hml : ∀ l ∈ ls, l.1 ≠ m := fun l hl => hm l (by simp [hl])
    have hmo := Good.not_owned (h := h) hml
    rw [push_raw hmn', push_raw hmn']
    · exact g.rest m hml
    · intro e; exact hmo a (l0.head_mem e)
    · intro e
      have := l1.head_mem e
      simp only [upd, if_neg hab.symm] at this
      exact hmo b this

theorem unthreadOne_endA (h : Heap N B) (b : B) (n : N) : (h.unthreadOne b n).endA = h.endA := by
  rw [unthreadOne_eq]; simp [cut_endA]
theorem unthreadOne_endB (h : Heap N B) (b : B) (n : N) : (h.unthreadOne b n).endB = h.endB := by
  rw [unthreadOne_eq]; simp [cut_endB]

theorem unthreadOne_self {h : Heap N B} {L : B → List N} (r : Lists h L) {b c : B} {n : N} (hn : n ∈ L b) (ic : Inc h c n) :
    (h.unthreadOne b n).next c n = (if c = b then none else h.next c n) ∧
    (h.unthreadOne b n).prev c n = (if c = b then none else h.prev c n) := by
  obtain ⟨i, t⟩ := r.inc b n hn
  have hp : ∀ q, h.prev b n = some q → Inc h b q ∧ Two h q := fun q e => r.inc b q (r.prev_mem hn e)
  have hx : ∀ q, h.next b n = some q → Inc h b q ∧ Two h q := fun q e => r.inc b q (r.next_mem hn e)
  have cA := cut_endA h b n
  have cB := cut_endB h b n
  rw [unthreadOne_eq]
  constructor
  · rw [setPrev_next, setNext_next _ (t.of cA cB) (i.of cA cB) (ic.of cA cB), cut_next hp ic]
    by_cases e : c = b <;> simp [e]
  · rw [setPrev_prev _ (t.of (by simp [cA]) (by simp [cB])) (i.of (by simp [cA]) (by simp [cB])) (ic.of (by simp [cA]) (by simp [cB])),
      setNext_prev, cut_prev hx ic]
    by_cases e : c = b <;> simp [e]

theorem Good.detach {h : Heap N B} {ls : List (N × B × B)} (g : Good h ls) (n : N) :
    Good (h.unthread n) (ls.filter (·.1 ≠ n)) := by
  by_cases hn : ∀ l ∈ ls, l.1 ≠ n
  · have hno := Good.not_owned (h := h) hn
    have r := g.rest n hn
    have e1 : h.unthreadOne (h.endA n) n = h :=
      unthreadOne_absent (raw_next r).1 (raw_next r).2 (fun e => hno _ (g.lists.head_mem e))
    have e2 : h.unthreadOne (h.endB n) n = h :=
      unthreadOne_absent (raw_next r).1 (raw_next r).2 (fun e => hno _ (g.lists.head_mem e))
    unfold Heap.unthread
    rw [e1, e2, List.filter_eq_self.2 (by simpa using fun a b c h => hn (a, b, c) h)]
    exact g
  · push Not at hn
    obtain ⟨⟨n', a, b⟩, hl, hn'⟩ := hn
    obtain rfl : n' = n := hn'
    obtain ⟨eA, eB, hab⟩ := g.ends _ hl
    simp only at eA eB hab
    have ma : n' ∈ owned a ls := mem_owned.2 ⟨a, b, hl, Or.inl rfl⟩
    have mb : n' ∈ owned b ls := mem_owned.2 ⟨a, b, hl, Or.inr rfl⟩
    have t0 : Two h n' := (g.lists.inc a n' ma).2
    have ia : Inc h a n' := (g.lists.inc a n' ma).1
    have ib : Inc h b n' := (g.lists.inc b n' mb).1
    have l1 := g.lists.unthreadOne ma
    have mb1 : n' ∈ upd (fun c => owned c ls) a ((owned a ls).filter (· ≠ n')) b := by
      simp only [upd, if_neg hab.symm]; exact mb
    have l2 := l1.unthreadOne mb1
    have eU : h.unthread n' = (h.unthreadOne a n').unthreadOne b n' := by
      unfold Heap.unthread; rw [eA, eB]
    have eL : upd (upd (fun c => owned c ls) a ((owned a ls).filter (· ≠ n'))) b
        ((upd (fun c => owned c ls) a ((owned a ls).filter (· ≠ n')) b).filter (· ≠ n'))
        = fun c => owned c (ls.filter (·.1 ≠ n')) := by
      funext c
      rw [owned_remove]
      by_cases e1 : c = b
      · subst e1; simp [upd, hab.symm]
      · by_cases e2 : c = a
        · subst e2; simp [upd, e1]
        · have : n' ∉ owned c ls := by
            intro e
            obtain ⟨x, y, h1, h2⟩ := mem_owned.1 e
            have : (x, y) = (a, b) := by
              obtain ⟨p, q, pq⟩ := g.ends _ h1
              simp only at p q
              rw [← p, ← q, eA, eB]
            simp only [Prod.mk.injEq] at this
            rcases h2 with h2 | h2
            · exact e2 (by rw [← h2, this.1])
            · exact e1 (by rw [← h2, this.2])
          simp only [upd, if_neg e1, if_neg e2]
          rw [List.filter_eq_self.2]
          intro x hx
          simp only [ne_eq, decide_not, Bool.not_eq_true', decide_eq_false_iff_not]
          exact fun e => this (e ▸ hx)
    rw [eL] at l2
    rw [eU]
    refine ⟨l2, ?_, ?_, ?_⟩
    · exact g.once.sublist ((List.filter_sublist).map _)
    · intro l hl'
      rw [unthreadOne_endA, unthreadOne_endB, unthreadOne_endA, unthreadOne_endB]
      exact g.ends l (List.mem_filter.1 hl').1
    · intro m hm
      by_cases e : m = n'
      · subst e
        have s1 := unthreadOne_self g.lists ma ia
        have s1b := unthreadOne_self g.lists ma ib
        have iA1 : Inc (h.unthreadOne a m) a m := ia.of (unthreadOne_endA _ _ _) (unthreadOne_endB _ _ _)
        have iB1 : Inc (h.unthreadOne a m) b m := ib.of (unthreadOne_endA _ _ _) (unthreadOne_endB _ _ _)
        have s2 := unthreadOne_self l1 mb1 iA1
        have s3 := unthreadOne_self l1 mb1 iB1
        rw [if_neg hab] at s2
        rw [if_pos rfl] at s3 s1
        have fA : ((h.unthreadOne a m).unthreadOne b m).endA m = a := by
          rw [unthreadOne_endA, unthreadOne_endA, eA]
        unfold Heap.next Heap.prev at s2 s3
        rw [fA] at s2 s3
        simp only [if_true, if_neg hab] at s2 s3
        unfold raw
        have q1 : (h.unthreadOne a m).next a m = none := s1.1
        have q2 : (h.unthreadOne a m).prev a m = none := by rw [s1.2]; simp
        unfold Heap.next at q1
        unfold Heap.prev at q2
        simp only [s2.1, s2.2, s3.1, s3.2, q1, q2]
      · have hml : ∀ l ∈ ls, l.1 ≠ m := by
          intro l hl' e'
          exact hm l (List.mem_filter.2 ⟨hl', by simpa using fun e2 => e (by rw [← e', e2])⟩) e'
        have hmo := Good.not_owned (h := h) hml
        rw [unthreadOne_raw e, unthreadOne_raw e]
        · exact g.rest m hml
        · intro e'; exact hmo a (g.lists.prev_mem ma e')
        · intro e'; exact hmo a (g.lists.next_mem ma e')
        · intro e'
          have := l1.prev_mem mb1 e'
          simp only [upd, if_neg hab.symm] at this
          exact hmo b this
        · intro e'
          have := l1.next_mem mb1 e'
          simp only [upd, if_neg hab.symm] at this
          exact hmo b this

/-- A heap before anything was attached; nodes may have any owners recorded. -/
def emptyHeap (eA eB : N → B) : Heap N B :=
  { endA := eA, endB := eB, nextA := fun _ => none, prevA := fun _ => none, nextB := fun _ => none, prevB := fun _ => none, head := fun _ => none }

theorem good_empty (eA eB : N → B) : Good (emptyHeap eA eB) ([] : List (N × B × B)) := by
  refine ⟨⟨fun b => rfl, fun b n h => ?_⟩, List.nodup_nil, ?_, fun n _ => rfl⟩
  · simp [owned] at h
  · intro l h; simp at h

/-- What the program does for each operation. -/
def runOp (h : Heap N B) : LinkOp N B → Heap N B
  | .attach n a b => h.attach n a b
  | .detach n => h.unthread n

theorem good_run (h : Heap N B) (ls : List (N × B × B)) (g : Good h ls) (ops : List (LinkOp N B)) (hh : LinkHistory ls ops) :
    Good (ops.foldl runOp h) (ops.foldl linkStep ls) := by
  induction ops generalizing h ls with
  | nil => exact g
  | cons op ops ih =>
    refine ih _ _ ?_ hh.2
    cases op with
    | attach n a b => exact g.attach hh.1.1 hh.1.2
    | detach n => exact g.detach n

/-- **C31** After any history of attaching contacts to two bodies each and detaching them, in any order, going through
the list of a body visits exactly the contacts attached to it, newest first, and the walk ends. Contacts that were
never attached may be detached: that changes nothing. -/
theorem C31_lists (eA eB : N → B) (ops : List (LinkOp N B)) (hh : LinkHistory [] ops) (b : B) (fuel : Nat)
    (hf : (owned b (links ops)).length ≤ fuel) :
    let h := ops.foldl runOp (emptyHeap eA eB)
    h.walk b fuel (h.head b) = some (owned b (links ops)) := by
  have g := good_run _ _ (good_empty eA eB) ops hh
  exact Heap.walk_of_chain _ b _ _ fuel (g.lists.seg b).chain hf

/-- **C31** No contact is visited twice, and after it is detached neither body lists it while all others stay. -/
theorem C31_detach (ops : List (LinkOp N B)) (hh : LinkHistory [] ops) (b : B) (n : N) :
    (owned b (links ops)).Nodup ∧ n ∉ owned b (links (ops ++ [.detach n])) ∧
    ∀ m ≠ n, (m ∈ owned b (links (ops ++ [.detach n])) ↔ m ∈ owned b (links ops)) := by
  by_cases hB : Nonempty B
  · obtain ⟨b0⟩ := hB
    have g := good_run _ _ (good_empty (fun _ => b0) (fun _ => b0)) ops hh
    have e : links (ops ++ [.detach n]) = (links ops).filter (·.1 ≠ n) := by
      unfold links; rw [List.foldl_append]; rfl
    rw [e, owned_remove]
    refine ⟨g.lists.nodup b, ?_, ?_⟩
    · simp
    · intro m hm
      simp [hm]
  · exact absurd ⟨b⟩ hB

/-- Pushing a contact that is already at the head of a body's list makes the list circular: the walk never ends. The
space does so when a sleeping body is woken from a collision callback during a step: `Unlock` puts the body's
contacts, still attached, into `Arbiters` (space.go:573, 668-671, 178-206) and `ProcessComponents` pushes every
contact of `Arbiters` again (space.go:481-496). -/
theorem C31_push_twice (h : Heap N B) (b : B) (n : N) (hn : h.head b = some n) (fuel : Nat) :
    (h.push b n).walk b fuel ((h.push b n).head b) = none := by
  have h1 : (h.push b n).head b = some n := by rw [push_head, if_pos rfl]
  have h2 : (h.push b n).next b n = some n := by
    unfold Heap.push
    rw [hn]
    simp [setNext_next', setPrev_next]
  rw [h1]
  induction fuel with
  | zero => rfl
  | succ k ih => simp only [Heap.walk, h2, ih]; rfl

/-! ### The hypotheses are met -/

/-- Two contacts between bodies 0, 1 and 2; the first is detached, never-attached 9 is detached, and 7 comes back. -/
def exOps : List (LinkOp Nat Nat) := [.attach 7 0 1, .attach 8 2 0, .detach 9, .detach 7, .attach 5 1 0, .attach 7 0 2]

example : LinkHistory [] exOps ∧ owned 0 (links exOps) = [7, 5, 8] := by
  refine ⟨?_, by decide⟩
  simp [exOps, LinkHistory, LinkAllowed, linkStep]

example : ((exOps.foldl runOp (emptyHeap (fun _ => 0) (fun _ => 0))).walk 0 3 ((exOps.foldl runOp (emptyHeap (fun _ => 0) (fun _ => 0))).head 0))
    = some [7, 5, 8] := by decide

end Threads
end Cm
