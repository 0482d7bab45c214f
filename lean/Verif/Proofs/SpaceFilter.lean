import Verif.Proofs.SpaceProc

/-! # Old collisions are forgotten -/
set_option linter.unusedSectionVars false
set_option linter.unusedSimpArgs false
set_option linter.unusedVariables false
set_option linter.unusedTactic false
set_option linter.unreachableTactic false

namespace Cm
namespace Sp
open Spec
variable {K : Type}

/-- Both bodies of the collision are static or asleep. -/
def resting (s : St K) (r : Nat) : Prop := frozen s [] (s.ar r).a ∧ frozen s [] (s.ar r).b

theorem frozen_iff {s : St K} {b : Nat} : frozen s [] b ↔ ((s.bd b).kind = .static ∨ s.asleep b = true) := by
  simp only [frozen, off_nil, St.asleep, Option.isSome_iff_ne_none]

/-- What forgetting leaves as it is. -/
structure FilterF (s s' : St K) : Prop where
  rest : s' = { s with ar := s'.ar, cached := s'.cached, pool := s'.pool, evs := s'.evs }
  ar : ∀ r, (s'.ar r).sa = (s.ar r).sa ∧ (s'.ar r).sb = (s.ar r).sb ∧ (s'.ar r).a = (s.ar r).a ∧ (s'.ar r).b = (s.ar r).b ∧ (s'.ar r).stamp = (s.ar r).stamp
  live : ∀ r, live s' r → live s r
  pool : ∀ r ∈ s.pool, r ∈ s'.pool
  evs : ∃ l, s'.evs = l ++ s.evs ∧ ∀ e ∈ l, ∃ r, Sp.live s r ∧ ¬ resting s r ∧ (s.ar r).stamp < s.stamp ∧ (s.ar r).state ≠ .cached ∧
    e = .separate (s.ar r).sa (s.ar r).sb

theorem FilterF.refl (s : St K) : FilterF s s := ⟨rfl, fun _ => ⟨rfl, rfl, rfl, rfl, rfl⟩, fun _ h => h, fun _ h => h, [], rfl, by simp⟩

/-- One collision of the cache is looked at. -/
structure Filtered (s s' : St K) (l : List Nat) : Prop where
  frame : FilterF s s'
  old : ∀ r ∈ l, ¬ resting s r → (s.ar r).stamp < s.stamp → live s' r → (s'.ar r).state = .cached
  keep : ∀ r, live s r → (r ∉ l ∨ resting s r ∨ (s.ar r).stamp = s.stamp) → live s' r ∧ s'.ar r = s.ar r
  cached : ∀ r, r ∈ s'.cached → r ∈ s.cached
  young : ∀ r ∈ l, live s' r → (s'.ar r).state = .cached → (s.ar r).state = .cached ∨ ((s.ar r).stamp < s.stamp ∧ ¬ resting s r)
  drop : ∀ r ∈ l, live s r → ¬ resting s r → s.stamp - (s.ar r).stamp ≥ s.persistence → ¬ live s' r ∧ r ∈ s'.pool
  stay : ∀ r ∈ l, live s r → s.stamp - (s.ar r).stamp < s.persistence → live s' r

theorem setFilter_one {s : St K} {sl : List Nat} {r : Nat} (I : Inv s sl [] []) (E : EvI s []) (hst : ∀ q ∈ s.arbiters, (s.ar q).stamp = s.stamp)
    (hper : 1 ≤ s.persistence) (hr : r ∈ s.cached) :
    let s' := if (setFilter s r).2 then (setFilter s r).1 else { (setFilter s r).1 with cached := (setFilter s r).1.cached.erase r }
    Inv s' sl [] [] ∧ EvI s' [] ∧ Filtered s s' [r] := by
  intro s'
  have A := I.arbs
  by_cases hrest : resting s r
  · -- nothing happens
    have hcond : ((s.bd (s.ar r).a).kind = .static ∨ s.asleep (s.ar r).a) ∧ ((s.bd (s.ar r).b).kind = .static ∨ s.asleep (s.ar r).b) :=
      ⟨frozen_iff.1 hrest.1, frozen_iff.1 hrest.2⟩
    have : s' = s := by
      show (if (setFilter s r).2 then (setFilter s r).1 else { (setFilter s r).1 with cached := (setFilter s r).1.cached.erase r }) = s
      have : setFilter s r = (s, true) := by simp only [setFilter]; rw [if_pos hcond]
      rw [this]; rfl
    rw [this]
    refine ⟨I, E, FilterF.refl s, ?_, fun q hq _ => ⟨hq, rfl⟩, fun _ h => h, ?_, ?_, fun _ _ h _ => h⟩
    · intro q hq hn; rw [List.mem_singleton] at hq; subst hq; exact absurd hrest hn
    · intro q hq _ h; exact Or.inl h
    · intro q hq _ hn; rw [List.mem_singleton] at hq; subst hq; exact absurd hrest hn
  have hcond : ¬ (((s.bd (s.ar r).a).kind = .static ∨ s.asleep (s.ar r).a) ∧ ((s.bd (s.ar r).b).kind = .static ∨ s.asleep (s.ar r).b)) :=
    fun h => hrest ⟨frozen_iff.2 h.1, frozen_iff.2 h.2⟩
  have hlive : live s r := Or.inl hr
  have hle := E.stamp r hlive
  by_cases hnew : (s.ar r).stamp = s.stamp
  · have : s' = s := by
      show (if (setFilter s r).2 then (setFilter s r).1 else { (setFilter s r).1 with cached := (setFilter s r).1.cached.erase r }) = s
      have : setFilter s r = (s, true) := by
        simp only [setFilter]
        rw [if_neg hcond, hnew, Nat.sub_self, if_neg (by omega), if_neg (by omega)]
      rw [this]; rfl
    rw [this]
    refine ⟨I, E, FilterF.refl s, ?_, fun q hq _ => ⟨hq, rfl⟩, fun _ h => h, ?_, ?_, fun _ _ h _ => h⟩
    · intro q hq _ hlt; rw [List.mem_singleton] at hq; subst hq; omega
    · intro q hq _ h; exact Or.inl h
    · intro q hq _ _ ht; rw [List.mem_singleton] at hq; subst hq; omega
  have hlt : (s.ar r).stamp < s.stamp := by omega
  have hthr : ¬ thr s r := by
    intro ht
    have := (A.cach r ht).1 hr
    exact hnew (hst r ((A.arb r).2 (Or.inr ⟨ht, this⟩)))
  have hlists : ∀ b, r ∉ (s.bd b).arbs := fun b hb => hthr ((A.list b r).1 hb).1
  have harb : r ∉ s.arbiters := by
    intro h
    rcases (A.arb r).1 h with h | h
    · simp at h
    · exact hthr h.1
  -- the callback
  set s1 : St K := if (s.ar r).state ≠ .cached then
      { s.setA r fun d => { d with state := .cached } with evs := .separate (s.ar r).sa (s.ar r).sb :: s.evs } else s with hs1
  have hsf : setFilter s r = if s.stamp - (s.ar r).stamp ≥ s.persistence then
      ({ s1.setA r fun d => { d with count := 0 } with pool := r :: s1.pool }, false) else (s1, true) := by
    simp only [setFilter]
    rw [if_neg hcond]
    have hticks : s.stamp - (s.ar r).stamp ≥ 1 := by omega
    have : (if s.stamp - (s.ar r).stamp ≥ 1 ∧ (s.ar r).state ≠ .cached then
        { s.setA r fun d => { d with state := .cached } with evs := .separate (s.ar r).sa (s.ar r).sb :: s.evs } else s) = s1 := by
      rw [hs1]
      by_cases h : (s.ar r).state ≠ .cached
      · rw [if_pos ⟨hticks, h⟩, if_pos h]
      · rw [if_neg (fun k => h k.2), if_neg h]
    rw [this]
  have hrest1 : s1 = { s with ar := s1.ar, evs := s1.evs } := by
    rw [hs1]; split <;> rfl
  have haro : ∀ q, q ≠ r → s1.ar q = s.ar q := by
    intro q hq; rw [hs1]; split
    · simp [St.setA, hq]
    · rfl
  have harr : (s1.ar r).sa = (s.ar r).sa ∧ (s1.ar r).sb = (s.ar r).sb ∧ (s1.ar r).a = (s.ar r).a ∧ (s1.ar r).b = (s.ar r).b ∧
      (s1.ar r).stamp = (s.ar r).stamp ∧ (s1.ar r).count = (s.ar r).count ∧ (s1.ar r).state = .cached := by
    rw [hs1]; split
    · simp [St.setA]
    · rename_i h; push Not at h; exact ⟨rfl, rfl, rfl, rfl, rfl, rfl, h⟩
  have har : ∀ q, (s1.ar q).sa = (s.ar q).sa ∧ (s1.ar q).sb = (s.ar q).sb ∧ (s1.ar q).a = (s.ar q).a ∧ (s1.ar q).b = (s.ar q).b ∧ (s1.ar q).stamp = (s.ar q).stamp := by
    intro q
    by_cases e : q = r
    · subst e; exact ⟨harr.1, harr.2.1, harr.2.2.1, harr.2.2.2.1, harr.2.2.2.2.1⟩
    · rw [haro q e]; exact ⟨rfl, rfl, rfl, rfl, rfl⟩
  have hsame : SameAll s s1 := by
    constructor
    case ar => intro q; exact ⟨(har q).1, (har q).2.1, (har q).2.2.1, (har q).2.2.2.1⟩
    case bd => intro b; rw [hrest1]; exact ⟨rfl, rfl, rfl, rfl, rfl, rfl, rfl⟩
    all_goals (rw [hrest1])
  have I1 := I.congr hsame
  have hl1 := hsame.live
  have ht1 : ∀ q, thr s1 q ↔ thr s q := by
    intro q
    have e : s1.bd = s.bd := by rw [hrest1]
    simp only [thr, e, (har q).2.2.1]
  have hst1 : s1.stamp = s.stamp := by rw [hrest1]
  have hab : ∀ x y, about (.separate (s.ar r).sa (s.ar r).sb) x y = (s.ar r).isPair x y := fun x y => about_pair rfl x y
  have hph : ∀ x y, (s.ar r).isPair x y = true → phase x y s1.evs = some .apart := by
    intro x y hp
    have h0 := E.pair hlive hp
    rw [hs1]; split
    · rename_i h
      show phase x y (.separate (s.ar r).sa (s.ar r).sb :: s.evs) = some .apart
      rw [phase_next ((hab x y).trans hp) h0]
      revert h
      cases (s.ar r).state <;> simp [phaseOf, Phase.next]
    · rename_i h; push Not at h
      rw [h0, h]; rfl
  have hpo : ∀ x y, (s.ar r).isPair x y = false → phase x y s1.evs = phase x y s.evs := by
    intro x y hp
    rw [hs1]; split
    · exact phase_other ((hab x y).trans hp)
    · rfl
  have E1 : EvI s1 [] := by
    refine ⟨?_, ?_, ?_, ?_, ?_, by rw [hrest1]; exact E.pool⟩
    · intro q hq
      rw [hl1] at hq
      rw [(har q).1, (har q).2.1]
      by_cases e : q = r
      · subst e
        rw [harr.2.2.2.2.2.2]
        exact hph _ _ (by simp [Ar.isPair])
      · rw [haro q e, hpo, E.live q hq]
        by_contra hc
        simp only [Bool.not_eq_false] at hc
        exact e (A.uniq r q hlive hq hc).symm
    · intro x y hxy
      have hr1 := hxy r ((hl1 r).2 hlive)
      have e1 : (s1.ar r).isPair x y = (s.ar r).isPair x y := by simp only [Ar.isPair, harr.1, harr.2.1]
      rw [e1] at hr1
      rw [hpo x y hr1]
      apply E.rest
      intro q hq
      have := hxy q ((hl1 q).2 hq)
      simpa only [Ar.isPair, (har q).1, (har q).2.1] using this
    · intro q hq
      rw [ht1] at hq
      have e : q ≠ r := by
        rintro rfl
        rcases hq with h | h
        · exact hthr h
        · simp at h
      rw [haro q e]; exact E.used q hq
    · intro q hq hf
      rw [hl1] at hq
      have e : q ≠ r := by rintro rfl; rw [harr.2.2.2.2.2.2] at hf; cases hf
      rw [haro q e] at hf
      rw [ht1]; exact E.first q hq hf
    · intro q hq
      rw [hl1] at hq
      rw [hst1, (har q).2.2.2.2]; exact E.stamp q hq
  have hevs : ∃ l, s1.evs = l ++ s.evs ∧ ∀ e ∈ l, ∃ r, live s r ∧ ¬ resting s r ∧ (s.ar r).stamp < s.stamp ∧ (s.ar r).state ≠ .cached ∧
      e = .separate (s.ar r).sa (s.ar r).sb := by
    rw [hs1]; split
    · rename_i h
      exact ⟨[.separate (s.ar r).sa (s.ar r).sb], rfl, by intro e he; rw [List.mem_singleton] at he; exact ⟨r, hlive, hrest, hlt, h, he⟩⟩
    · exact ⟨[], rfl, by simp⟩
  by_cases hdrop : s.stamp - (s.ar r).stamp ≥ s.persistence
  · -- dropped
    rw [if_pos hdrop] at hsf
    have hs' : s' = { s1.setA r fun d => { d with count := 0 } with pool := r :: s1.pool, cached := s1.cached.erase r } := by
      show (if (setFilter s r).2 then (setFilter s r).1 else { (setFilter s r).1 with cached := (setFilter s r).1.cached.erase r }) = _
      rw [hsf]; rfl
    have har' : ∀ q, (s'.ar q).sa = (s1.ar q).sa ∧ (s'.ar q).sb = (s1.ar q).sb ∧ (s'.ar q).a = (s1.ar q).a ∧ (s'.ar q).b = (s1.ar q).b ∧
        (s'.ar q).stamp = (s1.ar q).stamp ∧ (s'.ar q).state = (s1.ar q).state := by
      intro q; rw [hs']; simp only [St.setA]; split
      · rename_i h; subst h; exact ⟨rfl, rfl, rfl, rfl, rfl, rfl⟩
      · exact ⟨rfl, rfl, rfl, rfl, rfl, rfl⟩
    have haro' : ∀ q, q ≠ r → s'.ar q = s1.ar q := by intro q hq; rw [hs']; simp [St.setA, hq]
    have ebd : s1.bd = s.bd := by rw [hrest1]
    have earb : s1.arbiters = s.arbiters := by rw [hrest1]
    have Th : Thinned s1 s' r := by
      refine ⟨?_, ?_, fun q => ⟨(har' q).1, (har' q).2.1, (har' q).2.2.1, (har' q).2.2.2.1⟩, ?_, by rw [hs']; rfl⟩
      · constructor
        case bd => intro b; rw [hs']; exact ⟨rfl, rfl, rfl, rfl, rfl, rfl⟩
        all_goals (rw [hs']; rfl)
      · intro b; rw [hs']
        show (s1.bd b).arbs = _
        rw [List.erase_of_not_mem]; rw [ebd]; exact hlists b
      · rw [hs']
        show s1.arbiters = _
        rw [List.erase_of_not_mem]; rw [earb]; exact harb
    have hc1 : r ∈ s1.cached := by rw [hrest1]; exact hr
    obtain ⟨I2, hl2⟩ := I1.forget Th hc1 (by simp) (by rw [hs']) (by rw [hs'])
    have ht2 := Th.thr I1
    have hev2 : s'.evs = s1.evs := by rw [hs']; rfl
    refine ⟨I2, ⟨?_, ?_, ?_, ?_, ?_, ?_⟩, ⟨?_, ?_, ?_, ?_, ?_⟩, ?_, ?_, ?_, ?_, ?_, ?_⟩
    · intro q hq
      rw [hl2] at hq
      rw [(har' q).1, (har' q).2.1, (har' q).2.2.2.2.2, hev2]; exact E1.live q hq.1
    · intro x y hxy
      rw [hev2]
      by_cases hp : (s.ar r).isPair x y = true
      · exact hph x y hp
      · apply E1.rest
        intro q hq
        by_cases e : q = r
        · subst e
          have e1 : (s1.ar q).isPair x y = (s.ar q).isPair x y := by simp only [Ar.isPair, harr.1, harr.2.1]
          rw [e1]; simpa using hp
        · have := hxy q ((hl2 q).2 ⟨hq, e⟩)
          rwa [haro' q e] at this
    · intro q hq
      rw [ht2] at hq
      rw [(har' q).2.2.2.2.2]
      exact E1.used q (hq.imp And.right id)
    · intro q hq hf
      rw [hl2] at hq
      rw [(har' q).2.2.2.2.2] at hf
      rw [ht2]
      rcases E1.first q hq.1 hf with h | h
      · exact Or.inl h
      · exact Or.inr ⟨hq.2, h⟩
    · intro q hq
      rw [hl2] at hq
      rw [(har' q).2.2.2.2.1]
      have : s'.stamp = s1.stamp := by rw [hs']; rfl
      rw [this]; exact E1.stamp q hq.1
    · intro q hq
      have e1 : s'.pool = r :: s1.pool := by rw [hs']
      have e2 : s'.fresh = s1.fresh := by rw [hs']; rfl
      rw [e1] at hq
      rw [e2]
      rcases List.mem_cons.1 hq with rfl | hq
      · exact (I1.arbs.ids q (Or.inl hc1)).1
      · exact E1.pool q hq
    · rw [hs', hrest1]; rfl
    · intro q; exact ⟨(har' q).1.trans (har q).1, (har' q).2.1.trans (har q).2.1, (har' q).2.2.1.trans (har q).2.2.1, (har' q).2.2.2.1.trans (har q).2.2.2.1,
        (har' q).2.2.2.2.1.trans (har q).2.2.2.2⟩
    · intro q hq; exact (hl1 q).1 ((hl2 q).1 hq).1
    · intro q hq
      have e1 : s'.pool = r :: s1.pool := by rw [hs']
      have e2 : s1.pool = s.pool := by rw [hrest1]
      rw [e1, e2]; simp [hq]
    · rw [hev2]; exact hevs
    · intro q hq _ _ hlq
      rw [List.mem_singleton] at hq
      exact absurd hq ((hl2 q).1 hlq).2
    · intro q hq hcase
      have e : q ≠ r := by
        rintro rfl
        rcases hcase with h | h | h
        · simp at h
        · exact hrest h
        · exact hnew h
      exact ⟨(hl2 q).2 ⟨(hl1 q).2 hq, e⟩, by rw [haro' q e, haro q e]⟩
    · intro q hq
      rw [hs', hrest1] at hq
      exact List.mem_of_mem_erase hq
    · intro q hq _ _
      rw [List.mem_singleton] at hq; subst hq
      exact Or.inr ⟨hlt, hrest⟩
    · intro q hq _ _ _
      rw [List.mem_singleton] at hq; subst hq
      exact ⟨fun h => ((hl2 q).1 h).2 rfl, by rw [hs']; simp⟩
    · intro q hq _ hlt'
      rw [List.mem_singleton] at hq; subst hq
      omega
  · rw [if_neg hdrop] at hsf
    have hs' : s' = s1 := by
      show (if (setFilter s r).2 then (setFilter s r).1 else { (setFilter s r).1 with cached := (setFilter s r).1.cached.erase r }) = _
      rw [hsf]; rfl
    rw [hs']
    refine ⟨I1, E1, ⟨?_, har, fun q => (hl1 q).1, fun q hq => by rw [hrest1]; exact hq, hevs⟩, ?_, ?_, ?_, ?_, ?_, ?_⟩
    · rw [hrest1]
    · intro q hq _ _ _
      rw [List.mem_singleton] at hq; subst hq
      exact harr.2.2.2.2.2.2
    · intro q hq hcase
      have e : q ≠ r := by
        rintro rfl
        rcases hcase with h | h | h
        · simp at h
        · exact hrest h
        · exact hnew h
      exact ⟨(hl1 q).2 hq, haro q e⟩
    · intro q hq; rw [hrest1] at hq; exact hq
    · intro q hq _ _
      rw [List.mem_singleton] at hq; subst hq
      exact Or.inr ⟨hlt, hrest⟩
    · intro q hq _ _ hd
      rw [List.mem_singleton] at hq; subst hq
      exact absurd hd hdrop
    · intro q hq h _; exact (hl1 q).2 h

theorem FilterF.resting {s s' : St K} (f : FilterF s s') (r : Nat) : resting s' r ↔ resting s r := by
  have e : s'.bd = s.bd := by rw [f.rest]
  simp only [Sp.resting, (f.ar r).2.2.1, (f.ar r).2.2.2.1, frozen, off, e]

theorem FilterF.trans {s t u : St K} (f : FilterF s t) (g : FilterF t u) (hk : ∀ r, Sp.live t r → (t.ar r).state ≠ .cached → (s.ar r).state ≠ .cached) :
    FilterF s u := by
  have est : t.stamp = s.stamp := by rw [f.rest]
  refine ⟨by rw [g.rest, f.rest], fun r => ?_, fun r hr => f.live r (g.live r hr), fun r hr => g.pool r (f.pool r hr), ?_⟩
  · obtain ⟨a1, a2, a3, a4, a5⟩ := f.ar r
    obtain ⟨b1, b2, b3, b4, b5⟩ := g.ar r
    exact ⟨b1.trans a1, b2.trans a2, b3.trans a3, b4.trans a4, b5.trans a5⟩
  · obtain ⟨l1, h1, k1⟩ := f.evs
    obtain ⟨l2, h2, k2⟩ := g.evs
    refine ⟨l2 ++ l1, by rw [h2, h1, List.append_assoc], ?_⟩
    intro e he
    rcases List.mem_append.1 he with he | he
    · obtain ⟨r, a1, a2, a3, a4, a5⟩ := k2 e he
      refine ⟨r, f.live r a1, fun h => a2 ((f.resting r).2 h), ?_, hk r a1 a4, ?_⟩
      · rw [← est, ← (f.ar r).2.2.2.2]; exact a3
      · rw [a5, (f.ar r).1, (f.ar r).2.1]
    · exact k1 e he

theorem filterOld_inv [Zero K] [LT K] [DecidableRel (α := K) (· < ·)] [Add K] : ∀ (l : List Nat) (s : St K) (sl : List Nat), Inv s sl [] [] → EvI s [] → (∀ q ∈ s.arbiters, (s.ar q).stamp = s.stamp) →
    1 ≤ s.persistence → l.Nodup → (∀ r ∈ l, r ∈ s.cached) →
    Inv (filterOld s l) sl [] [] ∧ EvI (filterOld s l) [] ∧ Filtered s (filterOld s l) l
  | [], s, sl, I, E, _, _, _, _ => ⟨I, E, FilterF.refl s, by simp, fun r hr _ => ⟨hr, rfl⟩, fun _ h => h, by simp, by simp, by simp⟩
  | r :: l, s, sl, I, E, hst, hper, hn, hc => by
    have hn' := List.nodup_cons.1 hn
    obtain ⟨I1, E1, D1⟩ := setFilter_one I E hst hper (hc r (by simp))
    rw [filterOld]
    simp only
    generalize (if (setFilter s r).2 then (setFilter s r).1 else { (setFilter s r).1 with cached := (setFilter s r).1.cached.erase r }) = s1 at I1 E1 D1
    have f1 := D1.frame
    have est : s1.stamp = s.stamp := by rw [f1.rest]
    have eper : s1.persistence = s.persistence := by rw [f1.rest]
    have earb : s1.arbiters = s.arbiters := by rw [f1.rest]
    have ebd : s1.bd = s.bd := by rw [f1.rest]
    have hne : ∀ q ∈ l, q ≠ r := by rintro q hq rfl; exact hn'.1 hq
    have hkeep : ∀ q, live s q → q ≠ r → live s1 q ∧ s1.ar q = s.ar q := fun q hq e => D1.keep q hq (Or.inl (by simpa using e))
    have hthr1 : ∀ q, thr s1 q ↔ thr s q := by intro q; simp only [thr, ebd, (f1.ar q).2.2.1]
    have hc1 : ∀ q ∈ l, q ∈ s1.cached := by
      intro q hq
      have h0 := hc q (by simp [hq])
      rcases (hkeep q (Or.inl h0) (hne q hq)).1 with h | h
      · exact h
      · -- in a list and in the cache before, so in the cache now
        rw [I1.arbs.cach q h]
        rw [hthr1] at h
        have := (I.arbs.cach q h).1 h0
        rw [off_congr (s := s) (fun b => by rw [ebd]), owner_congr (s := s) (fun b => by rw [ebd]), (f1.ar q).2.2.1, (f1.ar q).2.2.2.1]
        exact this
    obtain ⟨I2, E2, D2⟩ := filterOld_inv l s1 sl I1 E1 (by intro q hq; rw [earb] at hq; rw [(f1.ar q).2.2.2.2, est]; exact hst q hq) (by rw [eper]; exact hper) hn'.2 hc1
    generalize filterOld s1 l = s2 at I2 E2 D2
    have f2 := D2.frame
    have hmono : ∀ q, live s1 q → (s1.ar q).state ≠ .cached → (s.ar q).state ≠ .cached := by
      intro q hq hs
      by_cases e : q = r
      · subst e
        by_cases hcase : resting s q ∨ (s.ar q).stamp = s.stamp
        · rw [(D1.keep q (f1.live q hq) (Or.inr hcase)).2] at hs; exact hs
        · push Not at hcase
          have hle := E.stamp q (f1.live q hq)
          exact absurd (D1.old q (by simp) hcase.1 (by omega) hq) hs
      · rw [(hkeep q (f1.live q hq) e).2] at hs; exact hs
    refine ⟨I2, E2, f1.trans f2 hmono, ?_, ?_, fun q hq => D1.cached q (D2.cached q hq), ?_, ?_, ?_⟩
    · intro q hq hr hlt hlv
      rcases List.mem_cons.1 hq with rfl | hq
      · have h1 := D1.old q (by simp) hr hlt (f2.live q hlv)
        rw [(D2.keep q (f2.live q hlv) (Or.inl hn'.1)).2]; exact h1
      · exact D2.old q hq (by rw [f1.resting]; exact hr) (by rw [(f1.ar q).2.2.2.2, est]; exact hlt) hlv
    · intro q hq hcase
      have h1 := D1.keep q hq (by
        rcases hcase with h | h | h
        · left; simp only [List.mem_singleton]; rintro rfl; exact h (by simp)
        · exact Or.inr (Or.inl h)
        · exact Or.inr (Or.inr h))
      have h2 := D2.keep q h1.1 (by
        rcases hcase with h | h | h
        · left; exact fun k => h (by simp [k])
        · right; left; rw [f1.resting]; exact h
        · right; right; rw [(f1.ar q).2.2.2.2, est]; exact h)
      exact ⟨h2.1, h2.2.trans h1.2⟩
    · intro q hq hlv hs
      rcases List.mem_cons.1 hq with rfl | hq
      · rw [(D2.keep q (f2.live q hlv) (Or.inl hn'.1)).2] at hs
        exact D1.young q (by simp) (f2.live q hlv) hs
      · have := D2.young q hq hlv hs
        rw [(f1.ar q).2.2.2.2, est, f1.resting] at this
        have hq0 := f1.live q (f2.live q hlv)
        rw [(hkeep q hq0 (hne q hq)).2] at this
        exact this
    · intro q hq hlv hr hd
      rcases List.mem_cons.1 hq with rfl | hq
      · have := D1.drop q (by simp) hlv hr hd
        refine ⟨fun h => this.1 (f2.live q h), ?_⟩
        exact f2.pool q this.2
      · have h1 := hkeep q hlv (hne q hq)
        exact D2.drop q hq h1.1 (by rw [f1.resting]; exact hr) (by rw [h1.2, est, eper]; exact hd)
    · intro q hq hlv hd
      rcases List.mem_cons.1 hq with rfl | hq
      · have := D1.stay q (by simp) hlv hd
        exact (D2.keep q this (Or.inl hn'.1)).1
      · have h1 := hkeep q hlv (hne q hq)
        exact D2.stay q hq h1.1 (by rw [h1.2, est, eper]; exact hd)

end Sp
end Cm
