import Verif.Props.Threads
/-! # C30: the joint lists of bodies -/
set_option linter.unusedSectionVars false
set_option linter.unusedSimpArgs false
set_option linter.unusedVariables false
set_option linter.unnecessarySeqFocus false

namespace Cm
namespace Threads
open Spec
variable {N B : Type} [DecidableEq N] [DecidableEq B]

/-- The singly linked lists of all bodies are the links. -/
structure GoodJ (h : Heap N B) (ls : List (N × B × B)) : Prop where
  chain : ∀ b, Chain (h.next b) (h.head b) (owned b ls)
  once : (ls.map (·.1)).Nodup
  ends : ∀ l ∈ ls, h.endA l.1 = l.2.1 ∧ h.endB l.1 = l.2.2 ∧ l.2.1 ≠ l.2.2

theorem GoodJ.inc {h : Heap N B} {ls : List (N × B × B)} (g : GoodJ h ls) {b : B} {n : N} (hn : n ∈ owned b ls) :
    Inc h b n ∧ Two h n := by
  obtain ⟨x, y, hl, hxy⟩ := mem_owned.1 hn
  obtain ⟨e1, e2, e3⟩ := g.ends _ hl
  simp only at e1 e2 e3
  unfold Inc Two
  rw [e1, e2]
  exact ⟨hxy, e3⟩

theorem GoodJ.add {h : Heap N B} {ls : List (N × B × B)} (g : GoodJ h ls) {n : N} {a b : B} (hab : a ≠ b)
    (hn : ∀ l ∈ ls, l.1 ≠ n) : GoodJ (h.addJoint n a b) ((n, a, b) :: ls) := by
  have hno := Good.not_owned (h := h) hn
  have eA : (h.addJoint n a b).endA = upd h.endA n a := rfl
  have eB : (h.addJoint n a b).endB = upd h.endB n b := rfl
  have nA : (h.addJoint n a b).nextA = upd h.nextA n (h.head a) := rfl
  have nB : (h.addJoint n a b).nextB = upd h.nextB n (h.head b) := by
    show upd h.nextB n (upd h.head a (some n) b) = _
    rw [show upd h.head a (some n) b = h.head b by simp [upd, hab.symm]]
  have hd : ∀ c, (h.addJoint n a b).head c = if c = b then some n else if c = a then some n else h.head c := fun c => rfl
  have out : ∀ c m, m ≠ n → (h.addJoint n a b).next c m = h.next c m := by
    intro c m hm
    unfold Heap.next
    rw [eA, nA, nB]
    simp [upd, hm]
  have xa : (h.addJoint n a b).next a n = h.head a := by unfold Heap.next; rw [eA, nA]; simp [upd]
  have xb : (h.addJoint n a b).next b n = h.head b := by unfold Heap.next; rw [eA, nB]; simp [upd, hab]
  have old : ∀ c, Chain ((h.addJoint n a b).next c) (h.head c) (owned c ls) := by
    intro c
    refine (g.chain c).congr ?_
    intro m hm
    exact out c m (fun e => hno c (e ▸ hm))
  refine ⟨?_, ?_, ?_⟩
  · intro c
    rw [owned_cons, hd]
    by_cases e1 : c = b
    · subst e1
      rw [if_pos rfl, if_pos (Or.inr rfl)]
      exact ⟨rfl, by rw [xb]; exact old c⟩
    · by_cases e2 : c = a
      · subst e2
        rw [if_neg e1, if_pos rfl, if_pos (Or.inl rfl)]
        exact ⟨rfl, by rw [xa]; exact old c⟩
      · rw [if_neg e1, if_neg e2, if_neg (by rintro (e | e); exacts [e2 e.symm, e1 e.symm])]
        exact old c
  · simp only [List.map_cons, List.nodup_cons]
    refine ⟨?_, g.once⟩
    intro e
    obtain ⟨l, hl, e⟩ := List.mem_map.1 e
    exact hn l hl e
  · intro l hl
    rw [eA, eB]
    rcases List.mem_cons.1 hl with rfl | hl
    · simp [upd, hab]
    · have := hn l hl
      simp only [upd, if_neg this]
      exact g.ends l hl

/-- What `filterConstraints` does to a chain that contains the joint: it is taken out and nothing else changes. -/
theorem filterList_spec (b : B) (x : N) : ∀ (l : List N) (r : List N) (fuel : Nat) (p : Option N) (h : Heap N B),
    Chain (h.next b) p (l ++ x :: r) → (l ++ x :: r).Nodup → (∀ n ∈ l ++ x :: r, Inc h b n ∧ Two h n) → (l ++ x :: r).length ≤ fuel →
    ∃ h' p', Heap.filterList b x fuel p h = some (h', p') ∧ Chain (h'.next b) p' (l ++ r) ∧
      h'.endA = h.endA ∧ h'.endB = h.endB ∧ h'.head = h.head ∧
      (∀ m, m ∉ l → raw h' m = raw h m) ∧ (∀ c m, c ≠ b → Inc h c m → h'.next c m = h.next c m) := by
  intro l
  induction l with
  | nil =>
    intro r fuel p h hc nd hi hf
    obtain ⟨rfl, hc'⟩ := hc
    cases fuel with
    | zero => simp at hf
    | succ fuel =>
      refine ⟨h, h.next b x, ?_, hc', rfl, rfl, rfl, fun _ _ => rfl, fun _ _ _ _ => rfl⟩
      simp [Heap.filterList]
  | cons w l ih =>
    intro r fuel p h hc nd hi hf
    obtain ⟨rfl, hc'⟩ := hc
    cases fuel with
    | zero => simp at hf
    | succ fuel =>
      have nd' := List.nodup_cons.1 (show (w :: (l ++ x :: r)).Nodup from nd)
      have hwx : w ≠ x := by rintro rfl; exact nd'.1 (by simp)
      have hwl : w ∉ l := fun e => nd'.1 (by simp [e])
      have hwr : w ∉ r := fun e => nd'.1 (by simp [e])
      have hwi := hi w (by simp)
      obtain ⟨h', p', e1, e2, e3, e4, e5, e6, e7⟩ := ih r fuel (h.next b w) h hc' nd'.2
        (fun n hn => hi n (by simp only [List.cons_append, List.mem_cons]; exact Or.inr hn)) (by simpa using hf)
      have hrw : raw h' w = raw h w := e6 w hwl
      simp only [Heap.filterList]
      rw [if_neg (fun e => hwx (Option.some.inj e))]
      -- the node `w` gets a new link for `b`
      have fin : ∀ h2 : Heap N B, h2 = h'.setNext b w p' →
          Chain (h2.next b) (some w) (w :: l ++ r) ∧ h2.endA = h.endA ∧ h2.endB = h.endB ∧ h2.head = h.head ∧
          (∀ m, m ∉ w :: l → raw h2 m = raw h m) ∧ (∀ c m, c ≠ b → Inc h c m → h2.next c m = h.next c m) := by
        rintro h2 rfl
        have wi' : Inc h' b w := hwi.1.of e3 e4
        have wt' : Two h' w := hwi.2.of e3 e4
        refine ⟨⟨rfl, ?_⟩, by simp [e3], by simp [e4], by simp [e5], ?_, ?_⟩
        · rw [setNext_next _ wt' wi' wi', if_pos ⟨rfl, rfl⟩]
          refine e2.congr ?_
          intro m hm
          have hmi : Inc h b m := (hi m (by
            simp only [List.cons_append, List.mem_cons, List.mem_append] at hm ⊢; tauto)).1
          rw [setNext_next _ wt' wi' (hmi.of e3 e4), if_neg]
          rintro ⟨rfl, _⟩
          rcases List.mem_append.1 hm with h | h
          · exact hwl h
          · exact hwr h
        · intro m hm
          have : m ≠ w ∧ m ∉ l := by simpa using hm
          rw [setNext_raw this.1]; exact e6 m this.2
        · intro c m hcb ic
          rw [setNext_next _ wt' wi' (ic.of e3 e4), if_neg (fun e => hcb e.2)]
          exact e7 c m hcb ic
      by_cases e : h.endA w = b
      · have hn : h.nextA w = h.next b w := by unfold Heap.next; rw [if_pos e]
        simp only [e, if_true, hn, e1]
        refine ⟨_, some w, rfl, fin _ ?_⟩
        unfold Heap.setNext
        rw [e3, if_pos e]
      · have hn : h.nextB w = h.next b w := by unfold Heap.next; rw [if_neg e]
        simp only [e, if_false, hn, e1]
        refine ⟨_, some w, rfl, fin _ ?_⟩
        unfold Heap.setNext
        rw [e3, if_neg e]

/-- `Body.RemoveConstraint` on a body that lists the joint. -/
theorem removeFrom_spec {h : Heap N B} {L : B → List N} (hc : ∀ b, Chain (h.next b) (h.head b) (L b))
    (hi : ∀ b, ∀ n ∈ L b, Inc h b n ∧ Two h n) {b : B} {x : N} (hx : x ∈ L b) (fuel : Nat) (hf : (L b).length ≤ fuel) :
    ∃ h', h.removeFrom b x fuel = some h' ∧ (∀ c, Chain (h'.next c) (h'.head c) (upd L b ((L b).filter (· ≠ x)) c)) ∧
      h'.endA = h.endA ∧ h'.endB = h.endB := by
  obtain ⟨s, t, hl⟩ := List.append_of_mem hx
  have nd : (L b).Nodup := (hc b).nodup
  have hcb := hc b
  rw [hl] at hcb nd
  obtain ⟨h', p', e1, e2, e3, e4, e5, e6, e7⟩ := filterList_spec b x s t fuel (h.head b) h hcb nd (by rw [← hl]; exact hi b) (by rw [← hl]; exact hf)
  refine ⟨h'.setHead b p', by unfold Heap.removeFrom; rw [e1], ?_, e3, e4⟩
  intro c
  by_cases e : c = b
  · subst e
    rw [setHead_head, if_pos rfl, show upd L c ((L c).filter (· ≠ x)) c = s ++ t by
      simp only [upd, if_true]; rw [hl, filter_split nd]]
    exact e2
  · rw [setHead_head, if_neg e, show upd L b ((L b).filter (· ≠ x)) c = L c by simp [upd, e], e5]
    refine (hc c).congr ?_
    intro m hm
    exact e7 c m e (hi c m hm).1

theorem GoodJ.remove {h : Heap N B} {ls : List (N × B × B)} (g : GoodJ h ls) {x : N} (hx : ∃ l ∈ ls, l.1 = x) (fuel : Nat)
    (hf : ls.length ≤ fuel) : ∃ h', h.removeJoint x fuel = some h' ∧ GoodJ h' (ls.filter (·.1 ≠ x)) := by
  obtain ⟨⟨x', a, b⟩, hl, hx'⟩ := hx
  obtain rfl : x' = x := hx'
  obtain ⟨eA, eB, hab⟩ := g.ends _ hl
  simp only at eA eB hab
  have ma : x' ∈ owned a ls := mem_owned.2 ⟨a, b, hl, Or.inl rfl⟩
  have mb : x' ∈ owned b ls := mem_owned.2 ⟨a, b, hl, Or.inr rfl⟩
  have hlen : ∀ c, (owned c ls).length ≤ fuel := by
    intro c; unfold owned; rw [List.length_map]; exact Nat.le_trans (List.length_filter_le _ _) hf
  obtain ⟨h1, r1, c1, f1, f2⟩ := removeFrom_spec (L := fun c => owned c ls) g.chain (fun b n hn => g.inc hn) ma fuel (hlen a)
  have hi1 : ∀ c, ∀ n ∈ upd (fun c => owned c ls) a ((owned a ls).filter (· ≠ x')) c, Inc h1 c n ∧ Two h1 n := by
    intro c n hn
    have : n ∈ owned c ls := by
      by_cases e : c = a
      · subst e; simp only [upd, if_true] at hn; exact (List.mem_filter.1 hn).1
      · simpa only [upd, if_neg e] using hn
    exact ⟨(g.inc this).1.of f1 f2, (g.inc this).2.of f1 f2⟩
  have mb1 : x' ∈ upd (fun c => owned c ls) a ((owned a ls).filter (· ≠ x')) b := by
    simp only [upd, if_neg hab.symm]; exact mb
  obtain ⟨h2, r2, c2, f3, f4⟩ := removeFrom_spec c1 hi1 mb1 fuel (by simp only [upd, if_neg hab.symm]; exact hlen b)
  refine ⟨h2, ?_, ?_, ?_, ?_⟩
  · unfold Heap.removeJoint
    rw [eA, r1]
    simp only [f2, eB]
    exact r2
  · intro c
    have := c2 c
    have eL : upd (upd (fun c => owned c ls) a ((owned a ls).filter (· ≠ x'))) b
        ((upd (fun c => owned c ls) a ((owned a ls).filter (· ≠ x')) b).filter (· ≠ x')) c
        = owned c (ls.filter (·.1 ≠ x')) := by
      rw [owned_remove]
      by_cases e1 : c = b
      · subst e1; simp [upd, hab.symm]
      · by_cases e2 : c = a
        · subst e2; simp [upd, e1]
        · have hnc : x' ∉ owned c ls := by
            intro e
            obtain ⟨x, y, h1, h2⟩ := mem_owned.1 e
            obtain ⟨p, q, _⟩ := g.ends _ h1
            simp only at p q
            rcases h2 with h2 | h2
            · exact e2 (by rw [← h2, ← p, eA])
            · exact e1 (by rw [← h2, ← q, eB])
          simp only [upd, if_neg e1, if_neg e2]
          rw [List.filter_eq_self.2]
          intro z hz
          simp only [ne_eq, decide_not, Bool.not_eq_true', decide_eq_false_iff_not]
          exact fun e => hnc (e ▸ hz)
    rw [eL] at this
    exact this
  · exact g.once.sublist ((List.filter_sublist).map _)
  · intro l hl'
    rw [f3, f4, f1, f2]
    exact g.ends l (List.mem_filter.1 hl').1

/-- Removing a joint that a body does not list is a nil dereference. -/
theorem filterList_absent (b : B) (x : N) : ∀ (l : List N) (fuel : Nat) (p : Option N) (h : Heap N B),
    Chain (h.next b) p l → x ∉ l → Heap.filterList b x fuel p h = none := by
  intro l
  induction l with
  | nil =>
    intro fuel p h hc _
    obtain rfl : p = none := hc
    cases fuel <;> simp [Heap.filterList]
  | cons w l ih =>
    intro fuel p h hc hx
    obtain ⟨rfl, hc'⟩ := hc
    have hx' : x ≠ w ∧ x ∉ l := by simpa using hx
    cases fuel with
    | zero => rfl
    | succ fuel =>
      simp only [Heap.filterList]
      rw [if_neg (fun e => hx'.1 (Option.some.inj e).symm)]
      have := ih fuel (h.next b w) h hc' hx'.2
      unfold Heap.next at this
      by_cases e : h.endA w = b
      · simp only [e, if_true] at this ⊢; rw [this]
      · simp only [e, if_false] at this ⊢; rw [this]

/-! ## C30 -/

/-- What the program does for each operation. -/
def jointRun (fuel : Nat) (h : Heap N B) : List (LinkOp N B) → Option (Heap N B)
  | [] => some h
  | .attach n a b :: ops => jointRun fuel (h.addJoint n a b) ops
  | .detach n :: ops => match h.removeJoint n fuel with
    | none => none
    | some h' => jointRun fuel h' ops

theorem jointRun_spec (fuel : Nat) : ∀ (ops : List (LinkOp N B)) (h : Heap N B) (ls : List (N × B × B)), GoodJ h ls →
    LinkHistory ls ops → RemovesPresent ls ops → ls.length + ops.length ≤ fuel →
    ∃ h', jointRun fuel h ops = some h' ∧ GoodJ h' (ops.foldl linkStep ls) ∧ (ops.foldl linkStep ls).length ≤ fuel := by
  intro ops
  induction ops with
  | nil => intro h ls g _ _ hf; exact ⟨h, rfl, g, by simpa using hf⟩
  | cons op ops ih =>
    intro h ls g hh hr hf
    cases op with
    | attach n a b =>
      exact ih _ _ (g.add hh.1.1 hh.1.2) hh.2 hr.2 (by simp [linkStep] at hf ⊢; omega)
    | detach n =>
      obtain ⟨h', r1, g'⟩ := g.remove (hr.1 n rfl) fuel (by simp at hf; omega)
      have hlen := List.length_filter_le (fun l : N × B × B => decide (l.1 ≠ n)) ls
      obtain ⟨h'', r2⟩ := ih h' _ g' hh.2 hr.2 (by simp [linkStep] at hf hlen ⊢; omega)
      exact ⟨h'', by simp only [jointRun, r1]; exact r2.1, r2.2⟩

/-- **C30** After any history of adding joints between different bodies and removing joints that are there, each body
enumerates exactly once each joint attached to it, newest first. -/
theorem C30_lists (eA eB : N → B) (ops : List (LinkOp N B)) (hh : LinkHistory [] ops) (hr : RemovesPresent [] ops) (fuel : Nat)
    (hf : ops.length ≤ fuel) :
    ∃ h, jointRun fuel (emptyHeap eA eB) ops = some h ∧ ∀ b,
      h.walk b fuel (h.head b) = some (owned b (links ops)) ∧ (owned b (links ops)).Nodup := by
  have g0 : GoodJ (emptyHeap eA eB) ([] : List (N × B × B)) := ⟨fun b => rfl, List.nodup_nil, by simp⟩
  obtain ⟨h, r1, g, hl⟩ := jointRun_spec fuel ops _ _ g0 hh hr (by simpa using hf)
  refine ⟨h, r1, fun b => ⟨?_, (g.chain b).nodup⟩⟩
  refine Heap.walk_of_chain _ b _ _ fuel (g.chain b) ?_
  unfold owned
  rw [List.length_map]
  exact Nat.le_trans (List.length_filter_le _ _) hl

/-- **C30** Removing a joint that is not in the space, for example a second time, is a nil dereference. -/
theorem C30_remove_absent (eA eB : N → B) (ops : List (LinkOp N B)) (hh : LinkHistory [] ops) (hr : RemovesPresent [] ops)
    (fuel : Nat) (hf : ops.length ≤ fuel) (x : N) (hx : ∀ l ∈ links ops, l.1 ≠ x) :
    ∃ h, jointRun fuel (emptyHeap eA eB) ops = some h ∧ h.removeJoint x fuel = none := by
  have g0 : GoodJ (emptyHeap eA eB) ([] : List (N × B × B)) := ⟨fun b => rfl, List.nodup_nil, by simp⟩
  obtain ⟨h, r1, g, hl⟩ := jointRun_spec fuel ops _ _ g0 hh hr (by simpa using hf)
  refine ⟨h, r1, ?_⟩
  unfold Heap.removeJoint Heap.removeFrom
  rw [filterList_absent _ x _ fuel _ h (g.chain (h.endA x)) (Good.not_owned (h := h) hx _)]

/-- **C30** Whether two bodies are barred from colliding by a joint is: some joint in the space between the two, in
either order, that does not let its bodies collide. It does not depend on which body is asked. -/
theorem C30_rejects (eA eB : N → B) (ops : List (LinkOp N B)) (hh : LinkHistory [] ops) (hr : RemovesPresent [] ops)
    (fuel : Nat) (hf : ops.length ≤ fuel) (collide : N → Bool) :
    ∃ h, jointRun fuel (emptyHeap eA eB) ops = some h ∧ ∀ a b visited, h.walk a fuel (h.head a) = some visited →
      (h.rejects collide a b visited = true ↔
        ∃ n, collide n = false ∧ ((n, a, b) ∈ links ops ∨ (n, b, a) ∈ links ops)) := by
  have g0 : GoodJ (emptyHeap eA eB) ([] : List (N × B × B)) := ⟨fun b => rfl, List.nodup_nil, by simp⟩
  obtain ⟨h, r1, g, hl⟩ := jointRun_spec fuel ops _ _ g0 hh hr (by simpa using hf)
  have hw : ∀ b, h.walk b fuel (h.head b) = some (owned b (links ops)) := by
    intro b
    refine Heap.walk_of_chain _ b _ _ fuel (g.chain b) ?_
    unfold owned
    rw [List.length_map]
    exact Nat.le_trans (List.length_filter_le _ _) hl
  refine ⟨h, r1, ?_⟩
  intro a b visited hv
  rw [hw] at hv
  obtain rfl := Option.some.inj hv
  unfold Heap.rejects
  rw [List.any_eq_true]
  constructor
  · rintro ⟨n, hn, hc⟩
    obtain ⟨x, y, hl, hxy⟩ := mem_owned.1 hn
    obtain ⟨e1, e2, _⟩ := g.ends _ hl
    simp only at e1 e2
    simp only [e1, e2, Bool.and_eq_true, Bool.not_eq_true', Bool.or_eq_true, decide_eq_true_eq] at hc
    refine ⟨n, hc.1, ?_⟩
    rcases hc.2 with ⟨rfl, rfl⟩ | ⟨rfl, rfl⟩
    · exact Or.inl hl
    · exact Or.inr hl
  · rintro ⟨n, hc, hn⟩
    rcases hn with hl | hl
    all_goals
      refine ⟨n, mem_owned.2 ⟨_, _, hl, by simp⟩, ?_⟩
      obtain ⟨e1, e2, _⟩ := g.ends _ hl
      simp only at e1 e2
      simp [hc, e1, e2]

/-! ### The hypotheses are met -/

/-- Joints between bodies 0, 1 and 2; the middle one of body 0's list is removed. -/
def exJoints : List (LinkOp Nat Nat) := [.attach 7 0 1, .attach 8 2 0, .attach 9 0 1, .detach 8, .attach 8 1 2]

example : LinkHistory [] exJoints ∧ RemovesPresent [] exJoints ∧ owned 0 (links exJoints) = [9, 7] := by
  refine ⟨?_, ?_, by decide⟩
  · simp [exJoints, LinkHistory, LinkAllowed, linkStep]
  · simp [exJoints, RemovesPresent, linkStep]

example : ((jointRun 9 (emptyHeap (fun _ => 0) (fun _ => 0)) exJoints).bind fun h => h.walk 0 9 (h.head 0)) = some [9, 7] := by decide

end Threads
end Cm
