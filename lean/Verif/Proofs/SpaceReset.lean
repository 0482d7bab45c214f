import Verif.Proofs.SpaceEvents

/-! # The start of a step: collisions are taken from the lists -/
set_option linter.unusedSectionVars false
set_option linter.unusedSimpArgs false
set_option linter.unusedVariables false
set_option linter.unusedTactic false
set_option linter.unreachableTactic false

namespace Cm
namespace Sp
open Spec
variable {K : Type}

/-- A static body is never asleep. -/
theorem Inv.static_root {s : St K} {sl P : List Nat} (I : Inv s sl [] P) {b : Nat} (h : (s.bd b).kind ≠ .dynamic) : (s.bd b).root = none := by
  cases e : (s.bd b).root with
  | none => rfl
  | some g => exact absurd (I.groups.root b g (by simp) e).2.1 h

theorem off_nil {s : St K} {b : Nat} : off s [] b ↔ (s.bd b).root ≠ none := by simp [off]

/-- Both bodies of a linked pair whose owner is awake are awake. -/
theorem awake_both {s : St K} {sl P : List Nat} (I : Inv s sl [] P) {a b : Nat} (h1 : Together s [] a b) (h2 : Together s [] b a)
    (ho : ¬ off s [] (owner s a b)) : (s.bd a).root = none ∧ (s.bd b).root = none := by
  rw [off_nil, not_not] at ho
  unfold owner at ho
  split at ho
  · rename_i hk
    exact ⟨I.static_root (by rw [hk]; simp), ho⟩
  · rename_i hk
    refine ⟨ho, ?_⟩
    cases e : (s.bd b).root with
    | none => rfl
    | some g =>
      rcases h2 g (by simp) e with h | h
      · exact absurd h hk
      · rw [ho] at h; cases h.2

/-- Both bodies of a linked pair whose owner is asleep are static or asleep. -/
theorem frozen_both {s : St K} {a b : Nat} (h1 : Together s [] a b) (h2 : Together s [] b a)
    (ho : off s [] (owner s a b)) : frozen s [] a ∧ frozen s [] b := by
  rw [off_nil] at ho
  unfold owner at ho
  split at ho
  · rename_i hk
    exact ⟨Or.inl hk, Or.inr (Or.inl ho)⟩
  · rename_i hk
    refine ⟨Or.inr (Or.inl ho), ?_⟩
    cases e : (s.bd a).root with
    | none => exact absurd e ho
    | some g =>
      rcases h1 g (by simp) e with h | h
      · exact Or.inl h
      · right; left; rw [h.2]; simp

/-- What the reset leaves as it is. -/
structure Reset (s s' : St K) : Prop where
  rest : s' = { s with bd := s'.bd, ar := s'.ar }
  bd : ∀ b, (s'.bd b).kind = (s.bd b).kind ∧ (s'.bd b).root = (s.bd b).root ∧ (s'.bd b).next = (s.bd b).next ∧
    (s'.bd b).shapes = (s.bd b).shapes ∧ (s'.bd b).cons = (s.bd b).cons ∧ (s'.bd b).space = (s.bd b).space ∧ (s'.bd b).idle = (s.bd b).idle
  ar : ∀ r, (s'.ar r).sa = (s.ar r).sa ∧ (s'.ar r).sb = (s.ar r).sb ∧ (s'.ar r).a = (s.ar r).a ∧ (s'.ar r).b = (s.ar r).b ∧
    (s'.ar r).stamp = (s.ar r).stamp ∧ (s'.ar r).count = (s.ar r).count

theorem Reset.refl (s : St K) : Reset s s := ⟨rfl, fun _ => ⟨rfl, rfl, rfl, rfl, rfl, rfl, rfl⟩, fun _ => ⟨rfl, rfl, rfl, rfl, rfl, rfl⟩⟩

theorem Reset.trans {s t u : St K} (h : Reset s t) (k : Reset t u) : Reset s u := by
  refine ⟨by rw [k.rest, h.rest], fun b => ?_, fun r => ?_⟩
  · obtain ⟨a1, a2, a3, a4, a5, a6, a7⟩ := h.bd b
    obtain ⟨b1, b2, b3, b4, b5, b6, b7⟩ := k.bd b
    exact ⟨b1.trans a1, b2.trans a2, b3.trans a3, b4.trans a4, b5.trans a5, b6.trans a6, b7.trans a7⟩
  · obtain ⟨a1, a2, a3, a4, a5, a6⟩ := h.ar r
    obtain ⟨b1, b2, b3, b4, b5, b6⟩ := k.ar r
    exact ⟨b1.trans a1, b2.trans a2, b3.trans a3, b4.trans a4, b5.trans a5, b6.trans a6⟩

theorem thinned_unthread {s : St K} {sl T P : List Nat} {r : Nat} (I : Inv s sl T P) (hl : live s r) :
    Thinned s { unthread s r with arbiters := s.arbiters.erase r } r := by
  have hne := I.arbs.ne r hl
  have hbd : ∀ c, ((unthread s r).bd c).arbs = (s.bd c).arbs.erase r := by
    intro c
    simp only [unthread, St.setB]
    by_cases h1 : c = (s.ar r).b
    · subst h1; simp [Ne.symm hne]
    · by_cases h2 : c = (s.ar r).a
      · subst h2; simp [hne]
      · simp only [h1, h2, if_false]
        rw [List.erase_of_not_mem]
        intro h
        rcases ((I.arbs.list c r).1 h).2 with h | h
        · exact h2 h.symm
        · exact h1 h.symm
  refine ⟨⟨rfl, rfl, rfl, rfl, rfl, rfl, rfl, rfl, fun c => ?_⟩, hbd, fun q => ⟨rfl, rfl, rfl, rfl⟩, rfl, rfl⟩
  simp only [unthread, St.setB]
  by_cases h1 : c = (s.ar r).b
  · subst h1; simp [Ne.symm hne]
  · by_cases h2 : c = (s.ar r).a
    · subst h2; simp [hne]
    · simp [h1, h2]

theorem unthread_idle (s : St K) (r c : Nat) : ((unthread s r).bd c).idle = (s.bd c).idle := by
  simp only [unthread, St.setB]
  by_cases h1 : c = (s.ar r).b
  · subst h1
    by_cases h2 : (s.ar r).b = (s.ar r).a <;> simp [h2]
  · by_cases h2 : c = (s.ar r).a
    · subst h2; simp [h1]
    · simp [h1, h2]

theorem resetArbs_inv : ∀ (l : List Nat) (s : St K), Inv { s with arbiters := l } s.sleeping [] [] → EvI { s with arbiters := l } [] →
    Reset s (resetArbs s l) ∧ Inv { resetArbs s l with arbiters := [] } s.sleeping [] [] ∧ EvI { resetArbs s l with arbiters := [] } [] ∧
      ∀ q, thr (resetArbs s l) q ↔ thr s q ∧ q ∉ l
  | [], s, I, E => ⟨Reset.refl s, I, E, fun q => by simp [resetArbs]⟩
  | r :: l, s, I, E => by
    have A := I.arbs
    set s0 : St K := { s with arbiters := r :: l } with hs0
    have hr : thr s0 r ∧ ¬ off s0 [] (owner s0 (s0.ar r).a (s0.ar r).b) := by
      rcases (A.arb r).1 (by simp [hs0]) with h | h
      · simp at h
      · exact h
    have hc : r ∈ s0.cached := (A.cach r hr.1).2 hr.2
    have haw := awake_both I (A.group r hr.1).1 (A.group r hr.1).2 hr.2
    -- the state is set
    set s1 := s.setA r fun d => { d with state := .normal } with hs1
    set s1' : St K := { s1 with arbiters := r :: l } with hs1'
    have har : ∀ q, (s1.ar q).sa = (s.ar q).sa ∧ (s1.ar q).sb = (s.ar q).sb ∧ (s1.ar q).a = (s.ar q).a ∧ (s1.ar q).b = (s.ar q).b ∧
        (s1.ar q).stamp = (s.ar q).stamp ∧ (s1.ar q).count = (s.ar q).count := by
      intro q; simp only [hs1, St.setA]; split
      · rename_i h; subst h; exact ⟨rfl, rfl, rfl, rfl, rfl, rfl⟩
      · exact ⟨rfl, rfl, rfl, rfl, rfl, rfl⟩
    have hstate : ∀ q, (s1.ar q).state = if q = r then .normal else (s.ar q).state := by
      intro q; simp only [hs1, St.setA]; split <;> rfl
    have hsame : SameAll s0 s1' := by
      constructor
      case ar => intro q; exact ⟨(har q).1, (har q).2.1, (har q).2.2.1, (har q).2.2.2.1⟩
      case bd => intro b; exact ⟨rfl, rfl, rfl, rfl, rfl, rfl, rfl⟩
      all_goals rfl
    have I1 : Inv s1' s.sleeping [] [] := I.congr hsame
    have ht1 : ∀ q, thr s1' q ↔ thr s0 q := by
      intro q
      show q ∈ (s.bd (s1.ar q).a).arbs ↔ q ∈ (s.bd (s.ar q).a).arbs
      rw [(har q).2.2.1]
    have E1 : EvI s1' [] := by
      refine ⟨?_, ?_, ?_, ?_, ?_, E.pool⟩
      · intro q hq
        rw [hsame.live] at hq
        have := E.live q hq
        show phase (s1.ar q).sa (s1.ar q).sb s.evs = some (phaseOf (s1.ar q).state)
        rw [(har q).1, (har q).2.1, hstate]
        split
        · rename_i h
          subst h
          have hu := E.used q (Or.inl hr.1)
          have h0 : phase (s.ar q).sa (s.ar q).sb s.evs = some (phaseOf (s.ar q).state) := this
          rw [h0]
          have h1 : (s.ar q).state ≠ .cached := hu.1
          have h2 : (s.ar q).state ≠ .ignore := hu.2
          revert h1 h2
          cases (s.ar q).state <;> simp [phaseOf]
        · exact this
      · intro x y h
        apply E.rest
        intro q hq
        have := h q ((hsame.live q).2 hq)
        have e : ((s1'.ar q).isPair x y) = ((s.ar q).isPair x y) := by
          show (s1.ar q).isPair x y = _
          simp only [Ar.isPair, (har q).1, (har q).2.1]
        rw [e] at this; exact this
      · intro q hq
        rw [ht1] at hq
        have := E.used q hq
        show (s1.ar q).state ≠ _ ∧ (s1.ar q).state ≠ _
        rw [hstate]; split
        · simp
        · exact this
      · intro q hq h
        rw [ht1]
        rw [hsame.live] at hq
        have h' : (s1.ar q).state = .first := h
        rw [hstate] at h'
        split at h'
        · cases h'
        · exact E.first q hq h'
      · intro q hq
        rw [hsame.live] at hq
        show (s1.ar q).stamp ≤ s.stamp
        rw [(har q).2.2.2.2.1]; exact E.stamp q hq
    -- it leaves the lists
    have hcond : s1.asleep (s1.ar r).a = false ∧ s1.asleep (s1.ar r).b = false := by
      have e1 : (s1.ar r).a = (s.ar r).a := (har r).2.2.1
      have e2 : (s1.ar r).b = (s.ar r).b := (har r).2.2.2.1
      simp only [St.asleep, e1, e2]
      have h1 : (s.bd (s.ar r).a).root = none := haw.1
      have h2 : (s.bd (s.ar r).b).root = none := haw.2
      have e3 : s1.bd = s.bd := rfl
      rw [e3, h1, h2]; simp
    have hlr : live s1' r := Or.inl hc
    have Th := thinned_unthread I1 hlr
    have I2 := I1.thin Th hc (by simp) rfl rfl
    have ht2 := Th.thr I1
    set s2 := unthread s1 r with hs2
    have hfin : ({ unthread s1' r with arbiters := s1'.arbiters.erase r } : St K) = { s2 with arbiters := l } := by
      simp only [hs1', hs2, List.erase_cons_head]
      rfl
    rw [hfin] at Th I2 ht2
    have hl2 : ∀ q, live { s2 with arbiters := l } q ↔ live s1' q := by
      intro q
      show (q ∈ s.cached ∨ thr _ q) ↔ (q ∈ s.cached ∨ thr s1' q)
      rw [ht2]
      constructor
      · rintro (h | h)
        · exact Or.inl h
        · exact Or.inr h.2
      · rintro (h | h)
        · exact Or.inl h
        · by_cases e : q = r
          · subst e; exact Or.inl hc
          · exact Or.inr ⟨e, h⟩
    have E2 : EvI { s2 with arbiters := l } [] := by
      refine ⟨?_, ?_, ?_, ?_, ?_, E1.pool⟩
      · intro q hq; rw [hl2] at hq; exact E1.live q hq
      · intro x y h; exact E1.rest x y (fun q hq => h q ((hl2 q).2 hq))
      · intro q hq; rw [ht2] at hq; exact E1.used q (hq.imp And.right id)
      · intro q hq h
        rw [hl2] at hq
        rw [ht2]
        have e : q ≠ r := by
          rintro rfl
          have h' : (s1.ar q).state = .first := h
          rw [hstate] at h'; simp at h'
        rcases E1.first q hq h with h | h
        · simp at h
        · exact Or.inr ⟨e, h⟩
      · intro q hq; rw [hl2] at hq; exact E1.stamp q hq
    have IH := resetArbs_inv l s2 I2 E2
    have hgo : resetArbs s (r :: l) = resetArbs s2 l := by
      rw [resetArbs]
      show resetArbs (if s1.asleep (s1.ar r).a = false ∧ s1.asleep (s1.ar r).b = false then unthread s1 r else s1) l = _
      rw [if_pos hcond]
    rw [hgo]
    have hR : Reset s s2 := by
      refine ⟨rfl, fun b => ?_, har⟩
      have h := Th.na.bd b
      have h' : (s2.bd b).idle = (s.bd b).idle := unthread_idle s1 r b
      exact ⟨h.1, h.2.1, h.2.2.1, h.2.2.2.1, h.2.2.2.2.1, h.2.2.2.2.2, h'⟩
    refine ⟨hR.trans IH.1, IH.2.1, IH.2.2.1, fun q => ?_⟩
    have h2 : thr s2 q ↔ q ≠ r ∧ thr s q := (ht2 q).trans (and_congr_right fun _ => ht1 q)
    rw [IH.2.2.2, h2, List.mem_cons]
    tauto

end Sp
end Cm
