import Verif.Model.ContactBuffer
import Mathlib.Data.List.Basic
import Mathlib.Data.List.Nodup
import Mathlib.Tactic.Common

/-!
# C16: contact memory is never overwritten while live
-/
set_option linter.unusedSimpArgs false
set_option linter.unusedVariables false

namespace Cm
open ContactBuf

/-! ### Specification -/

/-- The two reservations share a contact. -/
def Spec.ShareContact (a b : Res) : Prop :=
  a.buf = b.buf ∧ ∃ i, (a.start ≤ i ∧ i < a.start + a.count) ∧ (b.start ≤ i ∧ i < b.start + b.count)

/-- At most `maxPer` contacts are used per collision, as collision.go guarantees by construction (a third one is an
index panic). -/
def Spec.Fits : Op → Prop
  | .step => True
  | .reserve c _ => c ≤ 2

/-! ### The ring -/

namespace ContactBuf

/-- The allocated buffers, oldest first. -/
structure Ring (s : State) (l : List Nat) : Prop where
  nodup : l.Nodup
  all : ∀ a, a ∈ l ↔ a < s.fresh
  linked : List.IsChain (fun a b => s.next a = b) l
  last : l.getLast? = s.head
  cyc : ∀ h, s.head = some h → some (s.next h) = l.head?
  sorted : l.Pairwise (fun a b => s.stampOf a ≤ s.stampOf b)
  le : ∀ a ∈ l, s.stampOf a ≤ s.stamp

structure Inv (s : State) : Prop where
  ring : ∃ l, Ring s l
  room : ∀ a, a < s.fresh → s.num a ≤ bufferSize
  fits : ∀ e ∈ s.log, e.start + e.count ≤ bufferSize
  alloc : ∀ e ∈ s.log, e.buf < s.fresh
  live : ∀ e ∈ s.log, (e.stamp = s.stampOf e.buf ∧ e.start + e.count ≤ s.num e.buf) ∨ e.stamp + s.persistence < s.stampOf e.buf
  apart : s.log.Pairwise (fun new old => Spec.ShareContact new old → old.stamp + s.persistence < new.stamp)

/-- The head buffer belongs to the current step. -/
def Current (s : State) : Prop := ∀ h, s.head = some h → s.stampOf h = s.stamp

theorem Ring.next_lt {s l} (R : Ring s l) {h} (e : s.head = some h) : s.next h < s.fresh := by
  have := R.cyc h e
  rw [← R.all]
  exact List.mem_of_mem_head? (by rw [← this]; simp)

theorem Ring.head_lt {s l} (R : Ring s l) {h} (e : s.head = some h) : h < s.fresh := by
  rw [← R.all]; exact List.mem_of_mem_getLast? (by rw [R.last, e]; simp)

theorem isChain_snoc {r : Nat → Nat → Prop} : ∀ (l : List Nat) (b : Nat), List.IsChain r l → (∀ a, l.getLast? = some a → r a b) →
    List.IsChain r (l ++ [b])
  | [], b, _, _ => by simp
  | [a], b, _, h => by simpa using h a (by simp)
  | a :: c :: l, b, hc, h => by
    have h1 := List.isChain_cons_cons.1 hc
    have := isChain_snoc (c :: l) b h1.2 (fun x hx => h x (by simpa using hx))
    exact List.isChain_cons_cons.2 ⟨h1.1, this⟩

theorem isChain_congr {f g : Nat → Nat} : ∀ (l : List Nat), (∀ a, a ∈ l.dropLast → f a = g a) → List.IsChain (fun a b => f a = b) l →
    List.IsChain (fun a b => g a = b) l
  | [], _, _ => by simp
  | [a], _, _ => by simp
  | a :: c :: l, h, hc => by
    have h1 := List.isChain_cons_cons.1 hc
    refine List.isChain_cons_cons.2 ⟨?_, isChain_congr (c :: l) (fun x hx => h x (by simp [List.dropLast] ; exact Or.inr hx)) h1.2⟩
    rw [← h a (by simp)]; exact h1.1

/-- Which buffer heads the ring after `pushFresh`. -/
theorem pushFresh_ring {s : State} {l} (R : Ring s l) : ∃ l', Ring (pushFresh s) l' := by
  unfold pushFresh
  split
  · rename_i h0
    have hl : l = [] := by
      have := R.last; rw [h0] at this; simpa using this
    subst hl
    have hz : s.fresh = 0 := by
      rcases Nat.eq_zero_or_pos s.fresh with h | h
      · exact h
      · exact absurd ((R.all 0).2 h) (by simp)
    refine ⟨[s.fresh], ⟨by simp, ?_, by simp, by simp [initHeader], ?_, by simp, ?_⟩⟩
    · intro a; simp [initHeader, hz]
    · intro h e; simp [initHeader] at e; subst e; simp [initHeader, upd]
    · intro a e; simp at e; subst e; simp [initHeader, upd]
  · rename_i h e
    obtain ⟨t, rest, rfl⟩ : ∃ t rest, l = t :: rest := by
      cases l with
      | nil => have := R.last; rw [e] at this; simp at this
      | cons t rest => exact ⟨t, rest, rfl⟩
    have ht : s.next h = t := by simpa using R.cyc h e
    have nd := List.nodup_cons.1 R.nodup
    split
    · -- reuse
      simp only [ht, initHeader]
      have hnext : upd s.next t (s.next t) = s.next := by
        funext x; unfold upd; split <;> simp_all
      simp only [hnext]
      refine ⟨rest ++ [t], ⟨?_, ?_, ?_, by simp, ?_, ?_, ?_⟩⟩
      · exact List.nodup_append.2 ⟨nd.2, by simp, by rintro a ha b hb rfl; simp at hb; subst hb; exact nd.1 ha⟩
      · intro a; have := R.all a; simp at this ⊢; rw [← this, or_comm]
      · refine isChain_snoc _ _ ?_ ?_
        · cases rest with
          | nil => simp
          | cons b rest => exact (List.isChain_cons_cons.1 R.linked).2
        · intro a ha
          have := R.last
          cases rest with
          | nil => simp at ha
          | cons b rest => 
            have : some a = some h := by rw [← e, ← this]; simpa using ha.symm
            simp at this; subst this; exact ht
      · intro h' e'; simp at e'; subst e'
        cases rest with
        | nil => 
          have := R.last; rw [e] at this; simp at this; subst this; simpa using ht
        | cons b rest =>
          have := List.isChain_cons_cons.1 R.linked
          simpa using this.1
      · refine List.pairwise_append.2 ⟨?_, by simp, ?_⟩
        · refine (List.pairwise_cons.1 R.sorted).2.imp_of_mem ?_
          intro a b ha hb hab
          have h1 : a ≠ t := by rintro rfl; exact nd.1 ha
          have h2 : b ≠ t := by rintro rfl; exact nd.1 hb
          simpa [upd, h1, h2] using hab
        · intro a ha b hb; simp at hb; subst hb
          have h1 : a ≠ b := by rintro rfl; exact nd.1 ha
          simpa [upd, h1] using R.le a (by simp [ha])
      · intro a ha
        by_cases hat : a = t
        · simp [upd, hat]
        · simpa [upd, hat] using R.le a (by simp at ha ⊢; tauto)
    · -- a new buffer
      have hne : h ≠ s.fresh := Nat.ne_of_lt (R.head_lt e)
      have hlt : ∀ a ∈ t :: rest, a ≠ s.fresh := fun a ha => Nat.ne_of_lt ((R.all a).1 ha)
      refine ⟨(t :: rest) ++ [s.fresh], ⟨?_, ?_, ?_, List.getLast?_concat .., ?_, ?_, ?_⟩⟩
      · exact List.nodup_append.2 ⟨R.nodup, by simp, by rintro a ha b hb rfl; simp at hb; exact hlt a ha hb⟩
      · intro a
        have := R.all a
        simp only [List.mem_append, this, List.mem_singleton, initHeader]
        omega
      · refine isChain_snoc _ _ ?_ ?_
        · refine isChain_congr _ ?_ R.linked
          intro a ha
          have hm := List.dropLast_subset _ ha
          have hah : a ≠ h := by
            rintro rfl
            have hl : (t :: rest) = (t :: rest).dropLast ++ [a] := by
              have := R.last; rw [e] at this
              have h2 := List.dropLast_append_getLast? (l := t :: rest) a (by rw [this]; simp)
              exact h2.symm
            have nd' := R.nodup
            rw [hl] at nd'
            exact (List.nodup_append.1 nd').2.2 a ha a (by simp) rfl
          simp [initHeader, upd, hah, hlt a hm]
        · intro a ha
          have : a = h := by
            have := R.last; rw [ha, e] at this; simpa using this
          subst this; simp [initHeader, upd]
      · intro h' e'; simp [initHeader] at e'; subst e'
        simp [initHeader, upd, hne, Ne.symm hne, ht]
      · refine List.pairwise_append.2 ⟨?_, by simp, ?_⟩
        · refine R.sorted.imp_of_mem ?_
          intro a b ha hb hab
          simpa [initHeader, upd, hlt a ha, hlt b hb] using hab
        · intro a ha b hb; simp at hb; subst hb
          simpa [initHeader, upd, hlt a ha] using R.le a ha
      · intro a ha
        rcases List.mem_append.1 ha with ha | ha
        · simpa [initHeader, upd, hlt a ha] using R.le a ha
        · simp at ha; subst ha; simp [initHeader, upd]

/-- What `pushFresh` does to the parts the reservations depend on. -/
theorem pushFresh_inv {s : State} (I : Inv s) : Inv (pushFresh s) ∧ Current (pushFresh s) ∧ (pushFresh s).stamp = s.stamp ∧
    (pushFresh s).persistence = s.persistence ∧ (∃ h, (pushFresh s).head = some h ∧ (pushFresh s).num h = 0) := by
  obtain ⟨l, R⟩ := I.ring
  have hR := pushFresh_ring R
  unfold pushFresh at hR ⊢
  split
  · rename_i h0
    simp only [h0] at hR
    have hlf : ∀ e ∈ s.log, e.buf ≠ s.fresh := fun e he => Nat.ne_of_lt (I.alloc e he)
    refine ⟨⟨hR, ?_, I.fits, fun e he => Nat.lt_succ_of_lt (I.alloc e he), ?_, I.apart⟩, ?_, rfl, rfl, ?_⟩
    · intro a ha
      simp only [initHeader, upd] at ha ⊢
      split
      · exact Nat.zero_le _
      · exact I.room a (by omega)
    · intro e he
      simpa [initHeader, upd, hlf e he] using I.live e he
    · intro h e; simp [initHeader] at e; subst e; simp [initHeader, upd]
    · exact ⟨_, rfl, by simp [initHeader, upd]⟩
  · rename_i h e0
    split
    · rename_i hgt
      simp only [e0, hgt, if_true] at hR
      refine ⟨⟨hR, ?_, I.fits, I.alloc, ?_, I.apart⟩, ?_, rfl, rfl, ?_⟩
      · intro a ha
        simp only [initHeader, upd] at ha ⊢
        split
        · exact Nat.zero_le _
        · exact I.room a ha
      · intro e he
        by_cases hb : e.buf = s.next h
        · right
          have := I.live e he
          simp only [initHeader, upd, hb, if_true] at this ⊢
          omega
        · simpa [initHeader, upd, hb] using I.live e he
      · intro h' e; simp [initHeader] at e; subst e; simp [initHeader, upd]
      · exact ⟨_, rfl, by simp [initHeader, upd]⟩
    · rename_i hgt
      simp only [e0, hgt, if_false] at hR
      have hlf : ∀ e ∈ s.log, e.buf ≠ s.fresh := fun e he => Nat.ne_of_lt (I.alloc e he)
      refine ⟨⟨hR, ?_, I.fits, fun e he => Nat.lt_succ_of_lt (I.alloc e he), ?_, I.apart⟩, ?_, rfl, rfl, ?_⟩
      · intro a ha
        simp only [initHeader, upd] at ha ⊢
        split
        · exact Nat.zero_le _
        · exact I.room a (by omega)
      · intro e he
        simpa [initHeader, upd, hlf e he] using I.live e he
      · intro h e; simp [initHeader] at e; subst e; simp [initHeader, upd]
      · exact ⟨_, rfl, by simp [initHeader, upd]⟩

theorem getArray_inv {s s1 : State} {b st : Nat} (I : Inv s) (C : Current s) (e : getArray s = some (s1, b, st)) :
    Inv s1 ∧ Current s1 ∧ s1.stamp = s.stamp ∧ s1.persistence = s.persistence ∧ s1.head = some b ∧ st = s1.num b ∧ st + maxPer ≤ bufferSize := by
  unfold getArray at e
  split at e
  · cases e
  · rename_i h hh
    by_cases hc : s.num h + maxPer > bufferSize
    · simp only [hc, if_true] at e
      obtain ⟨I1, C1, h1, h2, h', e', n0⟩ := pushFresh_inv I
      rw [e'] at e
      simp at e
      obtain ⟨rfl, rfl, rfl⟩ := e
      exact ⟨I1, C1, h1, h2, e', rfl, by rw [n0]; decide⟩
    · simp only [hc, if_false, hh] at e
      simp at e
      obtain ⟨rfl, rfl, rfl⟩ := e
      exact ⟨I, C, rfl, rfl, hh, rfl, by omega⟩

theorem push_ring {s : State} {l n} (R : Ring s l) (lg : List Res) : Ring { s with num := n, log := lg } l :=
  ⟨R.nodup, R.all, R.linked, R.last, R.cyc, R.sorted, R.le⟩

theorem reserve_inv {s s' : State} {c : Nat} {k : Bool} (I : Inv s) (C : Current s) (hc : c ≤ 2) (e : reserve s c k = some s') :
    Inv s' ∧ Current s' ∧ s'.stamp = s.stamp ∧ s'.persistence = s.persistence := by
  unfold reserve at e
  split at e
  · cases e
  · rename_i s1 b st g
    obtain ⟨I1, C1, h1, h2, hb, hs, hfit⟩ := getArray_inv I C g
    obtain ⟨l, R⟩ := I1.ring
    have hfit' : st + c ≤ bufferSize := by simp [maxPer] at hfit; omega
    by_cases hk : k = true
    · simp only [hk, if_true, pushContacts, hb] at e
      simp at e
      rw [← hb] at e
      subst e
      refine ⟨⟨⟨l, push_ring R _⟩, ?_, ?_, ?_, ?_, ?_⟩, ?_, h1, h2⟩
      · intro a ha
        simp only [upd]
        split
        · omega
        · exact I1.room a ha
      · intro x hx
        rcases List.mem_cons.1 hx with rfl | hx
        · exact hfit'
        · exact I1.fits x hx
      · intro x hx
        rcases List.mem_cons.1 hx with rfl | hx
        · exact R.head_lt hb
        · exact I1.alloc x hx
      · intro x hx
        rcases List.mem_cons.1 hx with rfl | hx
        · left
          simp only [upd, if_true]
          exact ⟨by rw [C1 _ hb, h1], by omega⟩
        · rcases I1.live x hx with ⟨h3, h4⟩ | h3
          · left
            refine ⟨h3, ?_⟩
            simp only [upd]
            split
            · rename_i hxb; rw [hxb] at h4; omega
            · exact h4
          · right; exact h3
      · refine List.pairwise_cons.2 ⟨?_, I1.apart⟩
        rintro x hx ⟨hbuf, i, ⟨h3, h4⟩, h5, h6⟩
        simp only at hbuf h3 h4
        rcases I1.live x hx with ⟨h7, h8⟩ | h7
        · rw [← hbuf] at h8; omega
        · rw [← hbuf, C1 _ hb, h1] at h7
          exact h7
      · intro h eh; exact C1 h eh
    · simp only [hk, if_false, pushContacts, popContacts, hb] at e
      simp at e
      have hn : upd (upd s1.num b (s1.num b + c)) b (upd s1.num b (s1.num b + c) b - c) = s1.num := by
        funext x; unfold upd; split <;> simp_all
      rw [hn, ← hb] at e
      subst e
      exact ⟨⟨⟨l, push_ring R _⟩, I1.room, I1.fits, I1.alloc, I1.live, I1.apart⟩, C1, h1, h2⟩

theorem beginStep_inv {s : State} (I : Inv s) : Inv (beginStep s) ∧ Current (beginStep s) ∧ (beginStep s).persistence = s.persistence := by
  have I' : Inv { s with stamp := s.stamp + 1 } := by
    obtain ⟨l, R⟩ := I.ring
    exact ⟨⟨l, ⟨R.nodup, R.all, R.linked, R.last, R.cyc, R.sorted, fun a ha => Nat.le_succ_of_le (R.le a ha)⟩⟩, I.room, I.fits, I.alloc, I.live, I.apart⟩
  obtain ⟨h1, h2, _, h4, _⟩ := pushFresh_inv I'
  exact ⟨h1, h2, h4⟩

theorem run_inv : ∀ (ops : List Op) {s s' : State}, Inv s → Current s → (∀ op ∈ ops, Spec.Fits op) → run s ops = some s' →
    Inv s' ∧ Current s' ∧ s'.persistence = s.persistence
  | [], s, s', I, C, _, e => by simp [run] at e; subst e; exact ⟨I, C, rfl⟩
  | .step :: ops, s, s', I, C, h, e => by
    obtain ⟨I1, C1, h1⟩ := beginStep_inv I
    have := run_inv ops I1 C1 (fun op ho => h op (by simp [ho])) (by simpa [run] using e)
    exact ⟨this.1, this.2.1, this.2.2.trans h1⟩
  | .reserve c k :: ops, s, s', I, C, h, e => by
    simp only [run] at e
    split at e
    · cases e
    · rename_i s1 g
      obtain ⟨I1, C1, _, h1⟩ := reserve_inv I C (h (.reserve c k) (by simp)) g
      have := run_inv ops I1 C1 (fun op ho => h op (by simp [ho])) e
      exact ⟨this.1, this.2.1, this.2.2.trans h1⟩

theorem init_inv (p : Nat) : Inv (init p) ∧ Current (init p) := by
  refine ⟨⟨⟨[], ⟨by simp, by simp [init], by simp, by simp [init], by simp [init], by simp, by simp⟩⟩, ?_, ?_, ?_, ?_, ?_⟩, ?_⟩ <;>
    simp [init, Current]

end ContactBuf

/-! ### C16 -/

/-- **C16**. After any history of steps and reservations of a space with any `CollisionPersistence`, every kept
reservation lies inside its buffer, and of any two kept reservations that share a contact the later one was made in a
step more than `persistence` steps after the other. So two reservations of the same step, or of steps at most
`persistence` apart, never overlap. -/
theorem C16_disjoint (p : Nat) (ops : List Op) (hops : ∀ op ∈ ops, Spec.Fits op) (s : State) (e : run (init p) ops = some s) :
    (∀ r ∈ s.log, r.start + r.count ≤ 1024) ∧
    s.log.Pairwise (fun later earlier => Spec.ShareContact later earlier → earlier.stamp + p < later.stamp) := by
  obtain ⟨I, C, h⟩ := run_inv ops (init_inv p).1 (init_inv p).2 hops e
  refine ⟨I.fits, ?_⟩
  have := I.apart
  rw [h] at this
  exact this

/-- **C16**. Only reserving before the first step fails. -/
theorem C16_total (p : Nat) (ops : List Op) : ∃ s, run (init p) (.step :: ops) = some s := by
  have key : ∀ (ops : List Op) (s : State), s.head ≠ none → ∃ s', run s ops = some s' := by
    have hpf : ∀ s : State, (pushFresh s).head ≠ none := by
      intro s; unfold pushFresh; split
      · simp
      · split <;> simp
    intro ops
    induction ops with
    | nil => intro s _; exact ⟨s, rfl⟩
    | cons op ops ih =>
      intro s hs
      cases op with
      | step => exact ih _ (hpf _)
      | reserve c k =>
        obtain ⟨h, hh⟩ := Option.ne_none_iff_exists'.1 hs
        obtain ⟨s1, b, st, g, hb⟩ : ∃ s1 b st, getArray s = some (s1, b, st) ∧ s1.head = some b := by
          unfold getArray
          rw [hh]
          have hx : (if s.num h + maxPer > bufferSize then pushFresh s else s).head ≠ none := by
            split
            · exact hpf s
            · exact hs
          obtain ⟨h', hh'⟩ := Option.ne_none_iff_exists'.1 hx
          exact ⟨_, h', (if s.num h + maxPer > bufferSize then pushFresh s else s).num h', by simp only [hh'], hh'⟩
        simp only [run, ContactBuf.reserve, g]
        by_cases hk : k = true
        · simp only [hk, if_true, pushContacts, hb]
          exact ih _ (by simp)
        · simp only [hk, if_false, pushContacts, popContacts, hb]
          exact ih _ (by simp)
  refine key ops _ ?_
  simp [beginStep, pushFresh, init]

/-- **C16**. Memory is not hoarded either: after any history, a step or an overfull buffer takes new memory only if every
buffer taken so far was last used within the past `persistence` steps. -/
theorem C16_reuse (p : Nat) (ops : List Op) (hops : ∀ op ∈ ops, Spec.Fits op) (s : State) (e : run (init p) ops = some s)
    (hnew : (pushFresh s).fresh ≠ s.fresh) : ∀ a, a < s.fresh → s.stamp ≤ s.stampOf a + p := by
  obtain ⟨I, C, h⟩ := run_inv ops (init_inv p).1 (init_inv p).2 hops e
  obtain ⟨l, R⟩ := I.ring
  intro a ha
  have hm := (R.all a).2 ha
  have hp : s.persistence = p := h
  unfold pushFresh at hnew
  split at hnew
  · rename_i h0
    have := R.last; rw [h0] at this; simp at this; subst this; simp at hm
  · rename_i h0 e0
    split at hnew
    · simp [initHeader] at hnew
    · rename_i hgt
      have hc := R.cyc _ e0
      cases l with
      | nil => simp at hm
      | cons t rest =>
        simp at hc
        rw [hc] at hgt
        rcases List.mem_cons.1 hm with rfl | hm
        · omega
        · have := (List.pairwise_cons.1 R.sorted).1 a hm
          omega

/-- With persistence 0 the memory of the first step is used again two steps later, and the two reservations overlap. -/
example : (run (init 0) [.step, .reserve 2 true, .step, .reserve 1 false, .step, .reserve 2 true]).map (·.log) =
    some [⟨0, 0, 2, 3⟩, ⟨0, 0, 2, 1⟩] := by decide +kernel

/-- With persistence 3 it is not, and rejected reservations are given back. -/
example : (run (init 3) [.step, .reserve 2 true, .reserve 2 false, .reserve 1 true, .step, .reserve 2 true]).map (·.log) =
    some [⟨1, 0, 2, 2⟩, ⟨0, 2, 1, 1⟩, ⟨0, 0, 2, 1⟩] := by decide +kernel

end Cm
