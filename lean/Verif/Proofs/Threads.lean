import Verif.Model.Threads
import Mathlib.Data.List.Basic
import Mathlib.Data.List.Nodup
import Mathlib.Tactic.Common
/-! # Lemmas on threaded lists -/
set_option linter.unusedSectionVars false
set_option linter.unusedSimpArgs false
set_option linter.unusedVariables false

namespace Cm
namespace Threads
variable {N B : Type} [DecidableEq N] [DecidableEq B]

/-- The doubly linked list starting at `h` with previous node `p` is `l`. -/
def Seg (nxt prv : N → Option N) : Option N → Option N → List N → Prop
  | _, h, [] => h = none
  | p, h, x :: xs => h = some x ∧ prv x = p ∧ Seg nxt prv (some x) (nxt x) xs

/-- The singly linked list starting at `h` is `l`. -/
def Chain (nxt : N → Option N) : Option N → List N → Prop
  | h, [] => h = none
  | h, x :: xs => h = some x ∧ Chain nxt (nxt x) xs

theorem Seg.chain {nxt prv : N → Option N} : ∀ {l : List N} {p h : Option N}, Seg nxt prv p h l → Chain nxt h l
  | [], _, _, e => e
  | _ :: _, _, _, ⟨e, _, s⟩ => ⟨e, s.chain⟩

theorem Seg.congr {nxt prv nxt' prv' : N → Option N} : ∀ {l : List N} {p h : Option N},
    (∀ x ∈ l, nxt' x = nxt x ∧ prv' x = prv x) → Seg nxt prv p h l → Seg nxt' prv' p h l
  | [], _, _, _, e => e
  | x :: l, _, _, hc, ⟨e, hp, s⟩ => by
    have hx := hc x (by simp)
    refine ⟨e, by rw [hx.2]; exact hp, ?_⟩
    rw [hx.1]
    exact s.congr (fun y hy => hc y (by simp [hy]))

theorem Chain.congr {nxt nxt' : N → Option N} : ∀ {l : List N} {h : Option N},
    (∀ x ∈ l, nxt' x = nxt x) → Chain nxt h l → Chain nxt' h l
  | [], _, _, e => e
  | x :: l, _, hc, ⟨e, s⟩ => by
    refine ⟨e, ?_⟩
    rw [hc x (by simp)]
    exact s.congr (fun y hy => hc y (by simp [hy]))

theorem Chain.unique {nxt : N → Option N} : ∀ {l l' : List N} {h : Option N}, Chain nxt h l → Chain nxt h l' → l = l'
  | [], [], _, _, _ => rfl
  | [], y :: _, _, e, ⟨e', _⟩ => by rw [show _ = none from e] at e'; exact absurd e' (by simp)
  | x :: _, [], _, ⟨e, _⟩, e' => by rw [show _ = none from e'] at e; exact absurd e (by simp)
  | x :: l, y :: l', _, ⟨e, s⟩, ⟨e', s'⟩ => by
    rw [e] at e'
    obtain rfl := Option.some.inj e'
    rw [s.unique s']

/-- A finite chain does not come back to a node. -/
theorem Chain.nodup {nxt : N → Option N} : ∀ {l : List N} {h : Option N}, Chain nxt h l → l.Nodup := by
  have key : ∀ (l : List N) (x : N) (r : List N) (h : Option N), Chain nxt h (l ++ x :: r) → Chain nxt (some x) (x :: r) := by
    intro l
    induction l with
    | nil => intro x r h hc; exact ⟨rfl, hc.2⟩
    | cons y l ih => intro x r h hc; exact ih x r _ hc.2
  intro l
  induction l with
  | nil => intro _ _; exact List.nodup_nil
  | cons x l ih =>
    intro h hc
    refine List.nodup_cons.2 ⟨?_, ih hc.2⟩
    intro hx
    obtain ⟨s, t, e⟩ := List.append_of_mem hx
    have h1 : Chain nxt (some x) (x :: t) := key (x :: s) x t h (by rw [List.cons_append, ← e]; exact hc)
    have h2 : Chain nxt (some x) (x :: l) := ⟨rfl, hc.2⟩
    have h3 := h1.unique h2
    rw [e] at h3
    have := congrArg List.length h3
    simp at this
    omega

theorem Heap.walk_of_chain (h : Heap N B) (b : B) : ∀ (l : List N) (p : Option N) (fuel : Nat),
    Chain (h.next b) p l → l.length ≤ fuel → h.walk b fuel p = some l
  | [], p, fuel, e, _ => by
    rw [show p = none from e]
    cases fuel <;> rfl
  | x :: l, p, 0, _, hl => absurd hl (by simp)
  | x :: l, p, fuel + 1, ⟨e, s⟩, hl => by
    rw [e]
    simp only [Heap.walk]
    rw [Heap.walk_of_chain h b l _ fuel s (by simpa using hl)]
    rfl

theorem Seg.next_mem {nxt prv : N → Option N} {p h : Option N} : ∀ {l r : List N} {x w : N} {p h : Option N},
    Seg nxt prv p h (l ++ x :: r) → nxt x = some w → w ∈ r
  | [], r, x, w, _, _, ⟨_, _, s⟩, e => by
    cases r with
    | nil => rw [show nxt x = none from s] at e; exact absurd e (by simp)
    | cons z r => rw [s.1] at e; obtain rfl := Option.some.inj e; simp
  | _ :: l, r, x, w, _, _, ⟨_, _, s⟩, e => Seg.next_mem (p := none) (h := none) (l := l) s e

theorem Seg.prev_mem {nxt prv : N → Option N} : ∀ {l r : List N} {x w : N} {p h : Option N},
    Seg nxt prv p h (l ++ x :: r) → prv x = some w → p = some w ∨ w ∈ l
  | [], r, x, w, _, _, ⟨_, hp, _⟩, e => by left; rw [← hp]; exact e
  | y :: l, r, x, w, _, _, ⟨_, _, s⟩, e => by
    rcases Seg.prev_mem (l := l) s e with h | h
    · right; obtain rfl := Option.some.inj h; simp
    · right; simp [h]

/-- Taking `x` out of a doubly linked list. -/
theorem Seg.delete {nxt prv nxt' prv' : N → Option N} {x : N} {r : List N} : ∀ {l : List N} {p h h' : Option N},
    Seg nxt prv p h (l ++ x :: r) → (l ++ x :: r).Nodup → (∀ q, p = some q → q ∉ l ++ x :: r) →
    (∀ y ∈ l ++ r, nxt' y = if prv x = some y then nxt x else nxt y) →
    (∀ y ∈ l ++ r, prv' y = if nxt x = some y then prv x else prv y) →
    h' = (if h = some x then nxt x else h) → Seg nxt' prv' p h' (l ++ r)
  | [], p, h, h', ⟨e, hp, s⟩, nd, hq, hn, hv, eh => by
    rw [e, if_pos rfl] at eh
    rw [eh]
    simp only [List.nil_append] at *
    cases r with
    | nil => exact s
    | cons z zs =>
      obtain ⟨e1, hz, s1⟩ := s
      have nd' : (z :: zs).Nodup := (List.nodup_cons.1 nd).2
      have hpx : ∀ y ∈ z :: zs, prv x ≠ some y := by
        intro y hy e2
        exact hq y (by rw [← hp]; exact e2) (by simp only [List.mem_cons] at hy ⊢; tauto)
      have hn' : ∀ y ∈ z :: zs, nxt' y = nxt y := fun y hy => by rw [hn y hy, if_neg (hpx y hy)]
      refine ⟨e1, ?_, ?_⟩
      · rw [hv z (by simp), if_pos e1, hp]
      · rw [hn' z (by simp)]
        refine s1.congr ?_
        intro y hy
        refine ⟨hn' y (by simp [hy]), ?_⟩
        rw [hv y (by simp [hy]), if_neg]
        intro e2
        rw [e1] at e2
        obtain rfl := Option.some.inj e2
        exact (List.nodup_cons.1 nd').1 hy
  | w :: l, p, h, h', ⟨e, hp, s⟩, nd, hq, hn, hv, eh => by
    have nd1 := List.nodup_cons.1 (by simpa using nd : (w :: (l ++ x :: r)).Nodup)
    have hwx : w ≠ x := fun e2 => nd1.1 (by rw [e2]; simp)
    have hwr : w ∉ r := fun e2 => nd1.1 (by simp [e2])
    have hwl : w ∉ l := fun e2 => nd1.1 (by simp [e2])
    rw [e, if_neg (fun e2 => hwx (Option.some.inj e2))] at eh
    have full : Seg nxt prv p h ((w :: l) ++ x :: r) := ⟨e, hp, s⟩
    refine ⟨eh, ?_, ?_⟩
    · rw [hv w (by simp), if_neg]
      · exact hp
      · intro e2
        exact hwr (Seg.next_mem (p := none) (h := none) full e2)
    · refine Seg.delete (l := l) s nd1.2 (fun q hq' => ?_) (fun y hy => hn y (by simp only [List.cons_append, List.mem_cons]; exact Or.inr hy))
        (fun y hy => hv y (by simp only [List.cons_append, List.mem_cons]; exact Or.inr hy)) ?_
      · obtain rfl := Option.some.inj hq'; exact nd1.1
      · rw [hn w (by simp)]
        cases l with
        | nil =>
          obtain ⟨f1, f2, _⟩ := s
          rw [if_pos f2, if_pos f1]
        | cons v l =>
          have g1 : nxt w = some v := s.1
          have hvx : v ≠ x := fun e2 => (List.nodup_cons.1 (by simpa using nd1.2 : (v :: (l ++ x :: r)).Nodup)).1 (by rw [e2]; simp)
          rw [if_neg, if_neg]
          · rw [g1]; exact fun e2 => hvx (Option.some.inj e2)
          · intro e2
            have s2 : Seg nxt prv (some v) (nxt v) (l ++ x :: r) := s.2.2
            rcases Seg.prev_mem s2 e2 with h3 | h3
            · exact hwl (by obtain rfl := Option.some.inj h3; simp)
            · exact hwl (by simp [h3])

/-! ## Views of assignments -/

/-- Node `n` belongs to owner `b`. -/
def Inc (h : Heap N B) (b : B) (n : N) : Prop := h.endA n = b ∨ h.endB n = b
/-- The two owners of `n` differ. -/
def Two (h : Heap N B) (n : N) : Prop := h.endA n ≠ h.endB n

theorem same_thread {h : Heap N B} {n : N} {b c : B} (t : Two h n) (hb : Inc h b n) (hc : Inc h c n) :
    (h.endA n = b ↔ h.endA n = c) ↔ b = c := by
  constructor
  · intro e
    rcases hb with hb | hb <;> rcases hc with hc | hc
    · rw [← hb, ← hc]
    · rw [← hb]; exact e.1 hb
    · rw [← hc]; exact (e.2 hc).symm
    · rw [← hb, ← hc]
  · rintro rfl; exact Iff.rfl

theorem Inc.of {h h' : Heap N B} {b : B} {n : N} (eA : h'.endA = h.endA) (eB : h'.endB = h.endB) (i : Inc h b n) :
    Inc h' b n := by unfold Inc; rw [eA, eB]; exact i
theorem Two.of {h h' : Heap N B} {n : N} (eA : h'.endA = h.endA) (eB : h'.endB = h.endB) (i : Two h n) :
    Two h' n := by unfold Two; rw [eA, eB]; exact i

section views
variable (h : Heap N B) (b c : B) (n m : N) (v : Option N)

@[simp] theorem setNext_endA : (h.setNext b n v).endA = h.endA := by unfold Heap.setNext; split <;> rfl
@[simp] theorem setNext_endB : (h.setNext b n v).endB = h.endB := by unfold Heap.setNext; split <;> rfl
@[simp] theorem setNext_head : (h.setNext b n v).head = h.head := by unfold Heap.setNext; split <;> rfl
@[simp] theorem setPrev_endA : (h.setPrev b n v).endA = h.endA := by unfold Heap.setPrev; split <;> rfl
@[simp] theorem setPrev_endB : (h.setPrev b n v).endB = h.endB := by unfold Heap.setPrev; split <;> rfl
@[simp] theorem setPrev_head : (h.setPrev b n v).head = h.head := by unfold Heap.setPrev; split <;> rfl
@[simp] theorem setHead_endA : (h.setHead b v).endA = h.endA := rfl
@[simp] theorem setHead_endB : (h.setHead b v).endB = h.endB := rfl
@[simp] theorem setHead_next : (h.setHead b v).next c m = h.next c m := rfl
@[simp] theorem setHead_prev : (h.setHead b v).prev c m = h.prev c m := rfl
theorem setHead_head : (h.setHead b v).head c = if c = b then v else h.head c := rfl

theorem setNext_next' : (h.setNext b n v).next c m =
    if m = n ∧ (h.endA n = b ↔ h.endA n = c) then v else h.next c m := by
  unfold Heap.setNext Heap.next
  by_cases h1 : h.endA n = b
  · simp only [h1, if_true, upd]
    by_cases h2 : m = n
    · subst h2
      by_cases h3 : h.endA m = c <;> simp [h1, h3] at * <;> simp_all
    · simp [h2]
  · simp only [h1, if_false, upd]
    by_cases h2 : m = n
    · subst h2
      by_cases h3 : h.endA m = c <;> simp_all
    · simp [h2]

theorem setPrev_prev' : (h.setPrev b n v).prev c m =
    if m = n ∧ (h.endA n = b ↔ h.endA n = c) then v else h.prev c m := by
  unfold Heap.setPrev Heap.prev
  by_cases h1 : h.endA n = b
  · simp only [h1, if_true, upd]
    by_cases h2 : m = n
    · subst h2
      by_cases h3 : h.endA m = c <;> simp [h1, h3] at * <;> simp_all
    · simp [h2]
  · simp only [h1, if_false, upd]
    by_cases h2 : m = n
    · subst h2
      by_cases h3 : h.endA m = c <;> simp_all
    · simp [h2]

@[simp] theorem setNext_prev : (h.setNext b n v).prev c m = h.prev c m := by
  unfold Heap.setNext Heap.prev; split <;> rfl
@[simp] theorem setPrev_next : (h.setPrev b n v).next c m = h.next c m := by
  unfold Heap.setPrev Heap.next; split <;> rfl

variable {h b c n m}

theorem setNext_next (t : Two h n) (hb : Inc h b n) (hc : Inc h c m) : (h.setNext b n v).next c m =
    if m = n ∧ c = b then v else h.next c m := by
  rw [setNext_next']
  by_cases e : m = n
  · subst e
    have e2 := same_thread t hb hc
    by_cases e3 : c = b
    · rw [if_pos ⟨rfl, e2.2 e3.symm⟩, if_pos ⟨rfl, e3⟩]
    · rw [if_neg (fun h => e3 (e2.1 h.2).symm), if_neg (fun h => e3 h.2)]
  · simp [e]

theorem setPrev_prev (t : Two h n) (hb : Inc h b n) (hc : Inc h c m) : (h.setPrev b n v).prev c m =
    if m = n ∧ c = b then v else h.prev c m := by
  rw [setPrev_prev']
  by_cases e : m = n
  · subst e
    have e2 := same_thread t hb hc
    by_cases e3 : c = b
    · rw [if_pos ⟨rfl, e2.2 e3.symm⟩, if_pos ⟨rfl, e3⟩]
    · rw [if_neg (fun h => e3 (e2.1 h.2).symm), if_neg (fun h => e3 h.2)]
  · simp [e]

end views

/-! ## Owners' lists -/

/-- The doubly linked lists of all owners are `L`. -/
structure Lists (h : Heap N B) (L : B → List N) : Prop where
  seg : ∀ b, Seg (h.next b) (h.prev b) none (h.head b) (L b)
  inc : ∀ b, ∀ n ∈ L b, Inc h b n ∧ Two h n

theorem Lists.nodup {h : Heap N B} {L : B → List N} (r : Lists h L) (b : B) : (L b).Nodup := (r.seg b).chain.nodup

theorem Lists.prev_mem {h : Heap N B} {L : B → List N} (r : Lists h L) {b : B} {n q : N} (hn : n ∈ L b)
    (e : h.prev b n = some q) : q ∈ L b := by
  obtain ⟨s, t, hl⟩ := List.append_of_mem hn
  have sg := r.seg b
  rw [hl] at sg ⊢
  rcases Seg.prev_mem sg e with h1 | h1
  · exact absurd h1 (by simp)
  · simp [h1]

theorem Lists.next_mem {h : Heap N B} {L : B → List N} (r : Lists h L) {b : B} {n q : N} (hn : n ∈ L b)
    (e : h.next b n = some q) : q ∈ L b := by
  obtain ⟨s, t, hl⟩ := List.append_of_mem hn
  have sg := r.seg b
  rw [hl] at sg ⊢
  have := Seg.next_mem (p := none) (h := none) sg e
  simp [this]

theorem Lists.head_mem {h : Heap N B} {L : B → List N} (r : Lists h L) {b : B} {q : N} (e : h.head b = some q) : q ∈ L b := by
  have sg := r.seg b
  cases hl : L b with
  | nil => rw [hl] at sg; rw [show h.head b = none from sg] at e; exact absurd e (by simp)
  | cons x l => rw [hl] at sg; rw [sg.1] at e; obtain rfl := Option.some.inj e; simp

/-! ### Push -/

@[simp] theorem push_endA (h : Heap N B) (b : B) (n : N) : (h.push b n).endA = h.endA := by
  unfold Heap.push; cases h.head b <;> simp
@[simp] theorem push_endB (h : Heap N B) (b : B) (n : N) : (h.push b n).endB = h.endB := by
  unfold Heap.push; cases h.head b <;> simp

theorem push_head (h : Heap N B) (b c : B) (n : N) : (h.push b n).head c = if c = b then some n else h.head c := by
  unfold Heap.push; cases h.head b <;> simp [setHead_head]

theorem push_next {h : Heap N B} {b c : B} {n m : N} (t : Two h n) (hb : Inc h b n) (hc : Inc h c m) :
    (h.push b n).next c m = if m = n ∧ c = b then h.head b else h.next c m := by
  have e := setNext_next (h.head b) t hb hc
  unfold Heap.push
  cases hh : h.head b <;> rw [hh] at e <;> simpa using e

theorem push_prev {h : Heap N B} {b c : B} {n m : N} (hm : ∀ q, h.head b = some q → Inc h b q ∧ Two h q) (hc : Inc h c m) :
    (h.push b n).prev c m = if h.head b = some m ∧ c = b then some n else h.prev c m := by
  unfold Heap.push
  cases hh : h.head b with
  | none => simp
  | some q =>
    obtain ⟨i, t⟩ := hm q hh
    simp only [setHead_prev]
    rw [setPrev_prev (h := h.setNext b n (some q)) (some n) (t.of (by simp) (by simp)) (i.of (by simp) (by simp)) (hc.of (by simp) (by simp)), setNext_prev]
    congr 1
    exact propext ⟨fun h => ⟨by rw [h.1], h.2⟩, fun h => ⟨(Option.some.inj h.1).symm, h.2⟩⟩

theorem Lists.push {h : Heap N B} {L : B → List N} (r : Lists h L) {b : B} {n : N} (hn : n ∉ L b) (i : Inc h b n)
    (t : Two h n) (hp : h.prev b n = none) : Lists (h.push b n) (upd L b (n :: L b)) := by
  have hm : ∀ q, h.head b = some q → Inc h b q ∧ Two h q := fun q hq => r.inc b q (r.head_mem hq)
  have hne : h.head b ≠ some n := fun e => hn (r.head_mem e)
  constructor
  · intro c
    by_cases e : c = b
    · subst e
      rw [show upd L c (n :: L c) c = n :: L c by simp [upd]]
      refine ⟨by rw [push_head, if_pos rfl], ?_, ?_⟩
      · rw [push_prev hm i, if_neg (fun e => hne e.1), hp]
      · rw [push_next t i i, if_pos ⟨rfl, rfl⟩]
        have sg := r.seg c
        cases hl : L c with
        | nil => rw [hl] at sg; exact sg
        | cons x l =>
          rw [hl] at sg
          obtain ⟨s1, s2, s3⟩ := sg
          have hx : x ∈ L c := by rw [hl]; simp
          refine ⟨s1, ?_, ?_⟩
          · rw [push_prev hm (r.inc c x hx).1, if_pos ⟨s1, rfl⟩]
          · rw [push_next t i (r.inc c x hx).1, if_neg (fun e => hn (by rw [← e.1]; exact hx))]
            refine s3.congr ?_
            intro y hy
            have hy' : y ∈ L c := by rw [hl]; simp [hy]
            refine ⟨?_, ?_⟩
            · rw [push_next t i (r.inc c y hy').1, if_neg (fun e => hn (by rw [← e.1]; exact hy'))]
            · rw [push_prev hm (r.inc c y hy').1, if_neg]
              rintro ⟨e1, _⟩
              rw [s1] at e1
              obtain rfl := Option.some.inj e1
              have := r.nodup c
              rw [hl] at this
              exact (List.nodup_cons.1 this).1 hy
    · rw [show upd L b (n :: L b) c = L c by simp [upd, e], push_head, if_neg e]
      refine (r.seg c).congr ?_
      intro y hy
      refine ⟨?_, ?_⟩
      · rw [push_next t i (r.inc c y hy).1, if_neg (fun h => e h.2)]
      · rw [push_prev hm (r.inc c y hy).1, if_neg (fun h => e h.2)]
  · intro c m hm'
    unfold Inc Two
    rw [push_endA, push_endB]
    by_cases e : c = b
    · subst e
      rw [show upd L c (n :: L c) c = n :: L c by simp [upd]] at hm'
      rcases List.mem_cons.1 hm' with rfl | h'
      · exact ⟨i, t⟩
      · exact r.inc c m h'
    · rw [show upd L b (n :: L b) c = L c by simp [upd, e]] at hm'
      exact r.inc c m hm'

/-! ### Removing one node from one list -/

theorem filter_split {l r : List N} {x : N} (nd : (l ++ x :: r).Nodup) : (l ++ x :: r).filter (· ≠ x) = l ++ r := by
  have h1 : x ∉ l := fun h => (List.nodup_append.1 nd).2.2 x h x (by simp) rfl
  have h2 : x ∉ r := (List.nodup_cons.1 (List.nodup_append.1 nd).2.1).1
  rw [List.filter_append, List.filter_cons]
  simp only [ne_eq, not_true_eq_false, decide_false, Bool.false_eq_true, if_false]
  rw [List.filter_eq_self.2, List.filter_eq_self.2]
  · intro a ha; simp only [decide_eq_true_eq]; exact fun e => h2 (e ▸ ha)
  · intro a ha; simp only [decide_eq_true_eq]; exact fun e => h1 (e ▸ ha)

/-- Any heap whose views differ from `h` as after taking `n` out of the list of `b`. -/
theorem Lists.remove {h h' : Heap N B} {L : B → List N} (r : Lists h L) {b : B} {n : N} (hn : n ∈ L b)
    (eA : h'.endA = h.endA) (eB : h'.endB = h.endB)
    (hnext : ∀ c m, Inc h c m → Two h m → m ∈ L c → (m ≠ n ∨ c ≠ b) → h'.next c m = if c = b ∧ h.prev b n = some m then h.next b n else h.next c m)
    (hprev : ∀ c m, Inc h c m → Two h m → m ∈ L c → (m ≠ n ∨ c ≠ b) → h'.prev c m = if c = b ∧ h.next b n = some m then h.prev b n else h.prev c m)
    (hhead : ∀ c, h'.head c = if c = b ∧ h.prev b n = none then h.next b n else h.head c) :
    Lists h' (upd L b ((L b).filter (· ≠ n))) := by
  constructor
  · intro c
    by_cases e : c = b
    · subst e
      rw [show upd L c ((L c).filter (· ≠ n)) c = (L c).filter (· ≠ n) by simp [upd]]
      obtain ⟨s, t, hl⟩ := List.append_of_mem hn
      have nd := r.nodup c
      have sg := r.seg c
      have hin : ∀ y, y ∈ s ++ t → y ∈ L c ∧ y ≠ n := by
        intro y hy
        rw [← filter_split (hl ▸ nd)] at hy
        rw [← hl] at hy
        have := List.mem_filter.1 hy
        exact ⟨this.1, by simpa using this.2⟩
      rw [hl] at nd sg
      rw [hl, filter_split nd]
      refine sg.delete nd (by simp) ?_ ?_ ?_
      · intro y hy
        obtain ⟨y1, y2⟩ := hin y hy
        have i := r.inc c y y1
        rw [hnext c y i.1 i.2 y1 (Or.inl y2)]; simp
      · intro y hy
        obtain ⟨y1, y2⟩ := hin y hy
        have i := r.inc c y y1
        rw [hprev c y i.1 i.2 y1 (Or.inl y2)]; simp
      · rw [hhead]
        have key : (h.prev c n = none) ↔ h.head c = some n := by
          cases s with
          | nil => exact ⟨fun _ => sg.1, fun _ => sg.2.1⟩
          | cons w s =>
            constructor
            · intro e1
              exfalso
              -- a later node has a predecessor
              have : ∀ (s : List N) (w : N) (p q : Option N), Seg (h.next c) (h.prev c) p q (w :: s ++ n :: t) → h.prev c n ≠ none := by
                intro s
                induction s with
                | nil => intro w p q sg; rw [sg.2.2.2.1]; simp
                | cons v s ih => intro w p q sg; exact ih v _ _ sg.2.2
              exact this s w _ _ sg e1
            · intro e1
              exfalso
              have : h.head c = some w := sg.1
              rw [this] at e1
              obtain rfl := Option.some.inj e1
              exact (List.nodup_cons.1 (show (w :: (s ++ w :: t)).Nodup from nd)).1 (by simp)
        simp only [true_and, key]
    · rw [show upd L b ((L b).filter (· ≠ n)) c = L c by simp [upd, e], hhead, if_neg (fun h => e h.1)]
      refine (r.seg c).congr ?_
      intro y hy
      have i := r.inc c y hy
      refine ⟨?_, ?_⟩
      · rw [hnext c y i.1 i.2 hy (Or.inr e), if_neg (fun h => e h.1)]
      · rw [hprev c y i.1 i.2 hy (Or.inr e), if_neg (fun h => e h.1)]
  · intro c m hm
    unfold Inc Two
    rw [eA, eB]
    by_cases e : c = b
    · subst e
      rw [show upd L c ((L c).filter (· ≠ n)) c = (L c).filter (· ≠ n) by simp [upd]] at hm
      exact r.inc c m (List.mem_filter.1 hm).1
    · rw [show upd L b ((L b).filter (· ≠ n)) c = L c by simp [upd, e]] at hm
      exact r.inc c m hm

/-! ### Unthread -/

theorem upd_self {α β : Type} [DecidableEq α] (f : α → β) (a : α) (v : β) (e : f a = v) : upd f a v = f := by
  funext x
  unfold upd
  split
  · rename_i h; rw [h, e]
  · rfl

theorem unthreadOne_absent {h : Heap N B} {b : B} {n : N} (h1 : h.next b n = none) (h2 : h.prev b n = none)
    (h3 : h.head b ≠ some n) : h.unthreadOne b n = h := by
  unfold Heap.unthreadOne
  simp only [h1, h2, h3, if_false]
  unfold Heap.next at h1
  unfold Heap.prev at h2
  unfold Heap.setNext Heap.setPrev
  by_cases e : h.endA n = b
  · simp only [e, if_true] at h1 h2 ⊢
    rw [upd_self _ _ _ h1, upd_self _ _ _ h2]
  · simp only [e, if_false] at h1 h2 ⊢
    rw [upd_self _ _ _ h1, upd_self _ _ _ h2]

/-- The heap after the first two assignments of `unthreadHelper`. -/
def cut (h : Heap N B) (b : B) (n : N) : Heap N B :=
  let h1 := match h.prev b n with
    | some q => h.setNext b q (h.next b n)
    | none => if h.head b = some n then h.setHead b (h.next b n) else h
  match h.next b n with
  | some m => h1.setPrev b m (h.prev b n)
  | none => h1

theorem unthreadOne_eq (h : Heap N B) (b : B) (n : N) :
    h.unthreadOne b n = ((cut h b n).setNext b n none).setPrev b n none := rfl

theorem cut_endA (h : Heap N B) (b : B) (n : N) : (cut h b n).endA = h.endA := by
  unfold cut
  cases h.prev b n <;> cases h.next b n <;> simp <;> split <;> rfl

theorem cut_endB (h : Heap N B) (b : B) (n : N) : (cut h b n).endB = h.endB := by
  unfold cut
  cases h.prev b n <;> cases h.next b n <;> simp <;> split <;> rfl

theorem cut_next {h : Heap N B} {b c : B} {n m : N} (hp : ∀ q, h.prev b n = some q → Inc h b q ∧ Two h q) (hc : Inc h c m) :
    (cut h b n).next c m = if c = b ∧ h.prev b n = some m then h.next b n else h.next c m := by
  unfold cut
  cases e : h.prev b n with
  | none =>
    cases h.next b n <;> by_cases e2 : h.head b = some n <;> simp [e2]
  | some q =>
    have := setNext_next (h.next b n) (hp q e).2 (hp q e).1 hc
    cases e2 : h.next b n <;> rw [e2] at this <;> simp only [setPrev_next, this, Option.some.injEq] <;>
      (congr 1; exact propext ⟨fun h => ⟨h.2, h.1.symm⟩, fun h => ⟨h.2.symm, h.1⟩⟩)

theorem cut_prev {h : Heap N B} {b c : B} {n m : N} (hp : ∀ q, h.next b n = some q → Inc h b q ∧ Two h q) (hc : Inc h c m) :
    (cut h b n).prev c m = if c = b ∧ h.next b n = some m then h.prev b n else h.prev c m := by
  unfold cut
  cases e : h.next b n with
  | none =>
    cases h.prev b n <;> by_cases e2 : h.head b = some n <;> simp [e2]
  | some q =>
    obtain ⟨i, t⟩ := hp q e
    have key : ∀ h1 : Heap N B, h1.endA = h.endA → h1.endB = h.endB → (∀ c m, h1.prev c m = h.prev c m) →
        (h1.setPrev b q (h.prev b n)).prev c m = if c = b ∧ some q = some m then h.prev b n else h.prev c m := by
      intro h1 e1 e2 e3
      rw [setPrev_prev (h := h1) _ (by unfold Two; rw [e1, e2]; exact t) (by unfold Inc; rw [e1, e2]; exact i) (by unfold Inc; rw [e1, e2]; exact hc), e3]
      congr 1
      exact propext ⟨fun h => ⟨h.2, by rw [h.1]⟩, fun h => ⟨(Option.some.inj h.2).symm, h.1⟩⟩
    refine key _ ?_ ?_ ?_
    · cases h.prev b n <;> by_cases e2 : h.head b = some n <;> simp [e2]
    · cases h.prev b n <;> by_cases e2 : h.head b = some n <;> simp [e2]
    · intro c m; cases h.prev b n <;> by_cases e2 : h.head b = some n <;> simp [e2]

theorem cut_head (h : Heap N B) (b c : B) (n : N) :
    (cut h b n).head c = if c = b ∧ h.prev b n = none ∧ h.head b = some n then h.next b n else h.head c := by
  unfold cut
  cases h.prev b n <;> cases h.next b n <;> by_cases e2 : h.head b = some n <;> simp [e2, setHead_head]

/-- What `unthreadHelper` does to the lists when the node is listed. -/
theorem Lists.unthreadOne {h : Heap N B} {L : B → List N} (r : Lists h L) {b : B} {n : N} (hn : n ∈ L b) :
    Lists (h.unthreadOne b n) (upd L b ((L b).filter (· ≠ n))) := by
  obtain ⟨i, t⟩ := r.inc b n hn
  have hp : ∀ q, h.prev b n = some q → Inc h b q ∧ Two h q := fun q e => r.inc b q (r.prev_mem hn e)
  have hx : ∀ q, h.next b n = some q → Inc h b q ∧ Two h q := fun q e => r.inc b q (r.next_mem hn e)
  have cA := cut_endA h b n
  have cB := cut_endB h b n
  have i' : Inc (cut h b n) b n := by unfold Inc; rw [cA, cB]; exact i
  have t' : Two (cut h b n) n := by unfold Two; rw [cA, cB]; exact t
  rw [unthreadOne_eq]
  refine r.remove hn (by simp [cA]) (by simp [cB]) ?_ ?_ ?_
  · intro c m ic tm _ hne
    rw [setPrev_next, setNext_next _ t' i' (by unfold Inc; rw [cA, cB]; exact ic), if_neg (by rintro ⟨e1, e2⟩; rcases hne with h | h <;> exact h (by assumption)), cut_next hp ic]
  · intro c m ic tm _ hne
    rw [setPrev_prev _ (t'.of (by simp) (by simp)) (i'.of (by simp) (by simp)) (ic.of (by simp [cA]) (by simp [cB])), if_neg (by rintro ⟨e1, e2⟩; rcases hne with h | h <;> exact h (by assumption)), setNext_prev, cut_prev hx ic]
  · intro c
    rw [setPrev_head, setNext_head, cut_head]
    congr 1
    apply propext
    constructor
    · rintro ⟨h1, h2, _⟩; exact ⟨h1, h2⟩
    · rintro ⟨h1, h2⟩
      refine ⟨h1, h2, ?_⟩
      obtain ⟨s, tl, hl⟩ := List.append_of_mem hn
      have sg := r.seg b
      rw [hl] at sg
      cases s with
      | nil => exact sg.1
      | cons w s =>
        exfalso
        have : ∀ (s : List N) (w : N) (p q : Option N), Seg (h.next b) (h.prev b) p q (w :: s ++ n :: tl) → h.prev b n ≠ none := by
          intro s
          induction s with
          | nil => intro w p q sg; rw [sg.2.2.2.1]; simp
          | cons v s ih => intro w p q sg; exact ih v _ _ sg.2.2
        exact this s w _ _ sg h2

end Threads
end Cm
