import Verif.Proofs.SpaceKind

/-! # Removing a shape -/
set_option linter.unusedSectionVars false
set_option linter.unusedSimpArgs false
set_option linter.unusedVariables false
set_option linter.unusedTactic false
set_option linter.unreachableTactic false

namespace Cm
namespace Sp
open Spec
variable {K : Type} [Zero K] [LT K] [DecidableRel (α := K) (· < ·)]

/-- The collision is one of this shape. -/
def onShape (s : St K) (x r : Nat) : Prop := (s.ar r).sa = x ∨ (s.ar r).sb = x

/-- The collisions of the shape in the list are gone. -/
structure Ended (s s' : St K) (x : Nat) (l : List Nat) : Prop where
  rest : s' = { s with bd := s'.bd, ar := s'.ar, arbiters := s'.arbiters, cached := s'.cached, pool := s'.pool, evs := s'.evs }
  bd : ∀ b, (s'.bd b).kind = (s.bd b).kind ∧ (s'.bd b).root = (s.bd b).root ∧ (s'.bd b).next = (s.bd b).next ∧
    (s'.bd b).shapes = (s.bd b).shapes ∧ (s'.bd b).cons = (s.bd b).cons ∧ (s'.bd b).space = (s.bd b).space ∧ (s'.bd b).idle = (s.bd b).idle
  pairs : ∀ q, (s'.ar q).sa = (s.ar q).sa ∧ (s'.ar q).sb = (s.ar q).sb
  live : ∀ q, Sp.live s' q ↔ (Sp.live s q ∧ ¬ (q ∈ l ∧ onShape s x q))
  cached : ∀ q, q ∈ s'.cached ↔ (q ∈ s.cached ∧ ¬ (q ∈ l ∧ onShape s x q))
  ar : ∀ q, Sp.live s' q → s'.ar q = s.ar q
  pool : ∀ q, q ∈ s.pool → q ∈ s'.pool
  evs : ∃ l', s'.evs = l' ++ s.evs ∧ ∀ e, e ∈ l' ↔ ∃ r ∈ l, onShape s x r ∧ (s.ar r).state ≠ .cached ∧ e = .separate (s.ar r).sa (s.ar r).sb

theorem cachedFilter_one {s : St K} {sl : List Nat} {b x r : Nat} (I : Inv s sl [] []) (E : EvI s []) (hx : (s.sh x).body = b) (hr : r ∈ s.cached) :
    let s' := if (cachedFilter s b x r).2 then (cachedFilter s b x r).1 else { (cachedFilter s b x r).1 with cached := (cachedFilter s b x r).1.cached.erase r }
    Inv s' sl [] [] ∧ EvI s' [] ∧ Ended s s' x [r] := by
  intro s'
  have A := I.arbs
  have hlive : live s r := Or.inl hr
  obtain ⟨p1, p2, _, _⟩ := A.shp r hlive
  have hcond : ((b = (s.ar r).a ∧ x = (s.ar r).sa) ∨ (b = (s.ar r).b ∧ x = (s.ar r).sb)) ↔ onShape s x r := by
    unfold onShape
    constructor
    · rintro (⟨_, h⟩ | ⟨_, h⟩)
      · exact Or.inl h.symm
      · exact Or.inr h.symm
    · rintro (h | h)
      · left; rw [p1, h]; exact ⟨hx.symm, rfl⟩
      · right; rw [p2, h]; exact ⟨hx.symm, rfl⟩
  by_cases hon : onShape s x r
  swap
  · have : s' = s := by
      show (if (cachedFilter s b x r).2 then (cachedFilter s b x r).1 else _) = s
      have : cachedFilter s b x r = (s, true) := by simp only [cachedFilter]; rw [if_neg (fun h => hon (hcond.1 h))]
      rw [this]; rfl
    rw [this]
    have hno : ∀ q, ¬ (q ∈ [r] ∧ onShape s x q) := by
      rintro q ⟨h1, h2⟩; rw [List.mem_singleton] at h1; subst h1; exact hon h2
    refine ⟨I, E, rfl, fun _ => ⟨rfl, rfl, rfl, rfl, rfl, rfl, rfl⟩, fun _ => ⟨rfl, rfl⟩, fun q => ⟨fun h => ⟨h, hno q⟩, fun h => h.1⟩,
      fun q => ⟨fun h => ⟨h, hno q⟩, fun h => h.1⟩, fun _ _ => rfl, fun _ h => h, [], rfl, ?_⟩
    intro e
    constructor
    · intro h; simp at h
    · rintro ⟨q, h1, h2, _⟩; exact absurd ⟨h1, h2⟩ (hno q)
  -- the callback
  set s1 : St K := if (s.ar r).state ≠ .cached then
      { s.setA r fun d => { d with state := .invalidated } with evs := .separate (s.ar r).sa (s.ar r).sb :: s.evs } else s with hs1
  have hrest1 : s1 = { s with ar := s1.ar, evs := s1.evs } := by
    rw [hs1]; split <;> rfl
  have haro : ∀ q, q ≠ r → s1.ar q = s.ar q := by
    intro q hq; rw [hs1]; split
    · simp [St.setA, hq]
    · rfl
  have harr : ∀ q, (s1.ar q).sa = (s.ar q).sa ∧ (s1.ar q).sb = (s.ar q).sb ∧ (s1.ar q).a = (s.ar q).a ∧ (s1.ar q).b = (s.ar q).b := by
    intro q
    by_cases hq : q = r
    · subst hq; rw [hs1]; split
      · simp [St.setA]
      · exact ⟨rfl, rfl, rfl, rfl⟩
    · rw [haro q hq]; exact ⟨rfl, rfl, rfl, rfl⟩
  have hbd1 : s1.bd = s.bd := by rw [hrest1]
  have I1 : Inv s1 sl [] [] := by
    apply I.congr
    constructor
    case ar => exact harr
    case bd => intro c; rw [hbd1]; exact ⟨rfl, rfl, rfl, rfl, rfl, rfl, rfl⟩
    all_goals rw [hrest1]
  have hcd1 : s1.cached = s.cached := by rw [hrest1]
  have hl1 : live s1 r := Or.inl (by rw [hcd1]; exact hr)
  have hcf : cachedFilter s b x r = ({ unthread s1 r with arbiters := (unthread s1 r).arbiters.erase r, pool := r :: (unthread s1 r).pool }, false) := by
    simp only [cachedFilter]
    rw [if_pos (hcond.2 hon)]
  have es' : s' = { unthread s1 r with arbiters := s1.arbiters.erase r, pool := r :: s1.pool, cached := s1.cached.erase r } := by
    show (if (cachedFilter s b x r).2 then _ else _) = _
    rw [hcf]; rfl
  have hth := thinned_unthread I1 hl1
  have hth' : Thinned s1 s' r := by
    rw [es']
    exact ⟨⟨hth.na.sh, hth.na.cn, hth.na.nb, hth.na.dyn, hth.na.stat, hth.na.dynIdx, hth.na.statIdx, hth.na.cons, hth.na.bd⟩, hth.arbs, hth.ar, rfl, rfl⟩
  obtain ⟨I', hl'⟩ := I1.forget hth' (by rw [hcd1]; exact hr) (by simp) (by rw [es']) (by rw [es'])
  have hlv : ∀ q, live s1 q ↔ live s q := by
    intro q; simp only [live, thr, hcd1, hbd1, (harr q).2.2.1]
  have har' : ∀ q, q ≠ r → s'.ar q = s.ar q := by
    intro q hq; rw [es']; exact haro q hq
  have hars : s'.ar = s1.ar := by rw [es']; rfl
  have hevs : s'.evs = s1.evs := by rw [es']; rfl
  have hev1 : s1.evs = if (s.ar r).state ≠ .cached then .separate (s.ar r).sa (s.ar r).sb :: s.evs else s.evs := by
    rw [hs1]; split <;> rfl
  have hphr := E.live r hlive
  -- phases
  have hother : ∀ u v, (s.ar r).isPair u v = false → phase u v s'.evs = phase u v s.evs := by
    intro u v huv
    rw [hevs, hev1]; split
    · exact phase_other ((about_pair rfl u v).trans huv)
    · rfl
  have hmine : ∀ u v, (s.ar r).isPair u v = true → phase u v s'.evs = some .apart := by
    intro u v huv
    have h0 := E.pair hlive huv
    rw [hevs, hev1]; split
    · rename_i hc
      rw [phase_next ((about_pair rfl u v).trans huv) h0]
      revert hc
      cases (s.ar r).state <;> simp [phaseOf, Phase.next]
    · rename_i hc
      rw [h0]
      have : (s.ar r).state = .cached := by simpa using hc
      rw [this]; rfl
  have hthr' : ∀ q, thr s' q ↔ (q ≠ r ∧ thr s q) := by
    intro q; rw [hth'.thr I1 q]
    have : thr s1 q ↔ thr s q := by simp only [thr, hbd1, (harr q).2.2.1]
    rw [this]
  have hlive' : ∀ q, live s' q ↔ (live s q ∧ q ≠ r) := by intro q; rw [hl', hlv]
  refine ⟨I', ⟨?_, ?_, ?_, ?_, ?_, ?_⟩, ⟨?_, ?_, ?_, ?_, ?_, ?_, ?_, ?_⟩⟩
  · intro q hq
    obtain ⟨h1, h2⟩ := (hlive' q).1 hq
    rw [har' q h2, hother]
    · exact E.live q h1
    · by_contra hc
      simp only [Bool.not_eq_false] at hc
      exact h2 (A.uniq r q hlive h1 hc).symm
  · intro u v huv
    by_cases hp : (s.ar r).isPair u v = true
    · exact hmine u v hp
    · rw [hother u v (by simpa using hp)]
      apply E.rest
      intro q hq
      by_cases hqr : q = r
      · rw [hqr]; simpa using hp
      · have := huv q ((hlive' q).2 ⟨hq, hqr⟩)
        rwa [har' q hqr] at this
  · intro q hq
    rcases hq with hq | hq
    · obtain ⟨h1, h2⟩ := (hthr' q).1 hq
      rw [har' q h1]; exact E.used q (Or.inl h2)
    · simp at hq
  · intro q hq hf
    obtain ⟨h1, h2⟩ := (hlive' q).1 hq
    rw [har' q h2] at hf
    rcases E.first q h1 hf with h | h
    · simp at h
    · exact Or.inr ((hthr' q).2 ⟨h2, h⟩)
  · intro q hq
    obtain ⟨h1, h2⟩ := (hlive' q).1 hq
    have hst : s'.stamp = s.stamp := by rw [es', hrest1]; rfl
    rw [har' q h2, hst]; exact E.stamp q h1
  · intro q hq
    have hf : s'.fresh = s.fresh := by rw [es', hrest1]; rfl
    have hp : s'.pool = r :: s.pool := by rw [es', hrest1]
    rw [hf]; rw [hp] at hq
    rcases List.mem_cons.1 hq with rfl | h
    · exact (A.ids q hlive).1
    · exact E.pool q h
  · rw [es', hrest1]; rfl
  · intro c
    obtain ⟨a1, a2, a3, a4, a5, a6⟩ := hth'.na.bd c
    refine ⟨by rw [a1, hbd1], by rw [a2, hbd1], by rw [a3, hbd1], by rw [a4, hbd1], by rw [a5, hbd1], by rw [a6, hbd1], ?_⟩
    rw [es']
    show ((unthread s1 r).bd c).idle = _
    rw [unthread_idle, hbd1]
  · intro q; rw [hars]; exact ⟨(harr q).1, (harr q).2.1⟩
  · intro q
    rw [hlive']
    constructor
    · rintro ⟨h1, h2⟩; exact ⟨h1, fun h => h2 (List.mem_singleton.1 h.1)⟩
    · rintro ⟨h1, h2⟩; exact ⟨h1, by rintro rfl; exact h2 ⟨by simp, hon⟩⟩
  · intro q
    have : s'.cached = s.cached.erase r := by rw [es', hrest1]
    rw [this, A.cachedN.mem_erase_iff]
    constructor
    · rintro ⟨h1, h2⟩; exact ⟨h2, fun h => h1 (List.mem_singleton.1 h.1)⟩
    · rintro ⟨h1, h2⟩; exact ⟨by rintro rfl; exact h2 ⟨by simp, hon⟩, h1⟩
  · intro q hq; exact har' q ((hlive' q).1 hq).2
  · intro q hq
    have hp : s'.pool = r :: s.pool := by rw [es', hrest1]
    rw [hp]; exact List.mem_cons_of_mem _ hq
  · by_cases hc : (s.ar r).state ≠ .cached
    · refine ⟨[.separate (s.ar r).sa (s.ar r).sb], by rw [hevs, hev1, if_pos hc]; rfl, ?_⟩
      intro e
      rw [List.mem_singleton]
      constructor
      · intro h; exact ⟨r, by simp, hon, hc, h⟩
      · rintro ⟨q, h1, _, _, h4⟩; rw [List.mem_singleton] at h1; subst h1; exact h4
    · refine ⟨[], by rw [hevs, hev1, if_neg hc]; rfl, ?_⟩
      intro e
      constructor
      · intro h; simp at h
      · rintro ⟨q, h1, _, h3, _⟩; rw [List.mem_singleton] at h1; subst h1; exact absurd h3 hc

theorem filterArbs_inv {x b : Nat} : ∀ (l : List Nat) (s : St K) (sl : List Nat), Inv s sl [] [] → EvI s [] → (s.sh x).body = b → l.Nodup → (∀ r ∈ l, r ∈ s.cached) →
    Inv (filterArbs s b x l) sl [] [] ∧ EvI (filterArbs s b x l) [] ∧ Ended s (filterArbs s b x l) x l
  | [], s, sl, I, E, _, _, _ => by
    refine ⟨I, E, rfl, fun _ => ⟨rfl, rfl, rfl, rfl, rfl, rfl, rfl⟩, fun _ => ⟨rfl, rfl⟩, by simp [filterArbs], by simp [filterArbs], fun _ _ => rfl, fun _ h => h, [], rfl, by simp⟩
  | r :: l, s, sl, I, E, hx, hn, hl => by
    have hrl := (List.nodup_cons.1 hn).1
    obtain ⟨I1, E1, D1⟩ := cachedFilter_one I E hx (hl r (by simp))
    rw [filterArbs]
    simp only
    set s1 : St K := if (cachedFilter s b x r).2 then (cachedFilter s b x r).1 else { (cachedFilter s b x r).1 with cached := (cachedFilter s b x r).1.cached.erase r } with hs1
    have hsh1 : s1.sh = s.sh := by rw [D1.rest]
    obtain ⟨I2, E2, D2⟩ := filterArbs_inv (x := x) (b := b) l s1 sl I1 E1 (by rw [hsh1]; exact hx) (List.nodup_cons.1 hn).2 (by
      intro q hq
      rw [D1.cached]
      refine ⟨hl q (by simp [hq]), ?_⟩
      rintro ⟨h1, _⟩; rw [List.mem_singleton] at h1; subst h1; exact hrl hq)
    have hon : ∀ q, onShape s1 x q ↔ onShape s x q := by intro q; simp only [onShape, (D1.pairs q).1, (D1.pairs q).2]
    set s2 := filterArbs s1 b x l with hs2
    have hlv : ∀ q, live s2 q ↔ (live s q ∧ ¬ (q ∈ r :: l ∧ onShape s x q)) := by
      intro q; rw [D2.live, D1.live, hon, List.mem_singleton, List.mem_cons]; tauto
    refine ⟨I2, E2, by rw [D2.rest, D1.rest], ?_, ?_, hlv, ?_, ?_, fun q h => D2.pool q (D1.pool q h), ?_⟩
    · intro c
      obtain ⟨a1, a2, a3, a4, a5, a6, a7⟩ := D1.bd c
      obtain ⟨b1, b2, b3, b4, b5, b6, b7⟩ := D2.bd c
      exact ⟨b1.trans a1, b2.trans a2, b3.trans a3, b4.trans a4, b5.trans a5, b6.trans a6, b7.trans a7⟩
    · intro q; exact ⟨(D2.pairs q).1.trans (D1.pairs q).1, (D2.pairs q).2.trans (D1.pairs q).2⟩
    · intro q; rw [D2.cached, D1.cached, hon, List.mem_singleton, List.mem_cons]; tauto
    · intro q hq
      rw [D2.ar q hq, D1.ar q ((D2.live q).1 hq).1]
    · obtain ⟨l1, e1, m1⟩ := D1.evs
      obtain ⟨l2, e2, m2⟩ := D2.evs
      refine ⟨l2 ++ l1, by rw [e2, e1, List.append_assoc], ?_⟩
      intro e
      rw [List.mem_append, m1, m2]
      have hstate : ∀ q ∈ l, s1.ar q = s.ar q := by
        intro q hq
        apply D1.ar
        rw [D1.live]
        refine ⟨Or.inl (hl q (by simp [hq])), ?_⟩
        rintro ⟨h1, _⟩; rw [List.mem_singleton] at h1; subst h1; exact hrl hq
      constructor
      · rintro (⟨q, h1, h2, h3, h4⟩ | ⟨q, h1, h2, h3, h4⟩)
        · rw [hstate q h1] at h3 h4
          exact ⟨q, by simp [h1], (hon q).1 h2, h3, h4⟩
        · rw [List.mem_singleton] at h1; exact ⟨q, by simp [h1], h2, h3, h4⟩
      · rintro ⟨q, h1, h2, h3, h4⟩
        rcases List.mem_cons.1 h1 with h1 | h1
        · exact Or.inr ⟨q, by simp [h1], h2, h3, h4⟩
        · refine Or.inl ⟨q, h1, (hon q).2 h2, ?_, ?_⟩
          · rw [hstate q h1]; exact h3
          · rw [hstate q h1]; exact h4

/-- Changing the list of shapes does not matter to the filter. -/
theorem unthread_shapes (s : St K) (b r : Nat) (f : List Nat → List Nat) :
    unthread (s.setB b fun d => { d with shapes := f d.shapes }) r = (unthread s r).setB b fun d => { d with shapes := f d.shapes } := by
  have hbd : (unthread (s.setB b fun d => { d with shapes := f d.shapes }) r).bd = ((unthread s r).setB b fun d => { d with shapes := f d.shapes }).bd := by
    funext c
    simp only [unthread, St.setB]
    by_cases h1 : c = b <;> by_cases h2 : c = (s.ar r).a <;> by_cases h3 : c = (s.ar r).b <;>
      by_cases h4 : b = (s.ar r).a <;> by_cases h5 : b = (s.ar r).b <;> by_cases h6 : (s.ar r).a = (s.ar r).b <;> simp_all
  simp only [unthread, St.setB] at hbd ⊢
  congr 1

theorem cachedFilter_shapes (s : St K) (b x r : Nat) (f : List Nat → List Nat) :
    cachedFilter (s.setB b fun d => { d with shapes := f d.shapes }) b x r =
      ((cachedFilter s b x r).1.setB b fun d => { d with shapes := f d.shapes }, (cachedFilter s b x r).2) := by
  unfold cachedFilter
  by_cases hc : (b = (s.ar r).a ∧ x = (s.ar r).sa) ∨ (b = (s.ar r).b ∧ x = (s.ar r).sb)
  · have hc' : (b = ((s.setB b fun d => { d with shapes := f d.shapes }).ar r).a ∧ x = ((s.setB b fun d => { d with shapes := f d.shapes }).ar r).sa) ∨
      (b = ((s.setB b fun d => { d with shapes := f d.shapes }).ar r).b ∧ x = ((s.setB b fun d => { d with shapes := f d.shapes }).ar r).sb) := hc
    simp only
    rw [if_pos hc, if_pos hc']
    by_cases hs : (s.ar r).state ≠ .cached
    · have hs' : ((s.setB b fun d => { d with shapes := f d.shapes }).ar r).state ≠ .cached := hs
      rw [if_pos hs, if_pos hs']
      have := unthread_shapes { s.setA r fun d => { d with state := .invalidated } with evs := .separate (s.ar r).sa (s.ar r).sb :: s.evs } b r f
      have e : ({ (s.setB b fun d => { d with shapes := f d.shapes }).setA r fun d => { d with state := .invalidated } with
          evs := .separate ((s.setB b fun d => { d with shapes := f d.shapes }).ar r).sa ((s.setB b fun d => { d with shapes := f d.shapes }).ar r).sb :: (s.setB b fun d => { d with shapes := f d.shapes }).evs } : St K) =
          ({ s.setA r fun d => { d with state := .invalidated } with evs := .separate (s.ar r).sa (s.ar r).sb :: s.evs } : St K).setB b fun d => { d with shapes := f d.shapes } := rfl
      rw [e, this]; rfl
    · have hs' : ¬ ((s.setB b fun d => { d with shapes := f d.shapes }).ar r).state ≠ .cached := hs
      rw [if_neg hs, if_neg hs', unthread_shapes]; rfl
  · have hc' : ¬ ((b = ((s.setB b fun d => { d with shapes := f d.shapes }).ar r).a ∧ x = ((s.setB b fun d => { d with shapes := f d.shapes }).ar r).sa) ∨
      (b = ((s.setB b fun d => { d with shapes := f d.shapes }).ar r).b ∧ x = ((s.setB b fun d => { d with shapes := f d.shapes }).ar r).sb)) := hc
    simp only
    rw [if_neg hc, if_neg hc']

theorem filterArbs_shapes (b x : Nat) (f : List Nat → List Nat) : ∀ (l : List Nat) (s : St K),
    filterArbs (s.setB b fun d => { d with shapes := f d.shapes }) b x l = (filterArbs s b x l).setB b fun d => { d with shapes := f d.shapes }
  | [], s => rfl
  | r :: l, s => by
    rw [filterArbs, filterArbs]
    simp only
    rw [cachedFilter_shapes]
    simp only
    by_cases h : (cachedFilter s b x r).2
    · rw [if_pos h, if_pos h]; exact filterArbs_shapes b x f l _
    · rw [if_neg h, if_neg h]; exact filterArbs_shapes b x f l { (cachedFilter s b x r).1 with cached := (cachedFilter s b x r).1.cached.erase r }

theorem activateStatic_ok {b x : Nat} : ∀ (l : List Nat) (s : St K), Good s → ∃ s', activateStatic s b x l = some s' ∧ Good s' ∧ WokenAll s s' ∧
    ∀ r ∈ l, onShape s x r → (s'.bd (if (s.ar r).a = b then (s.ar r).b else (s.ar r).a)).root = none
  | [], s, G => ⟨s, rfl, G, WokenAll.refl s, by simp⟩
  | r :: l, s, G => by
    rw [activateStatic]
    have h1 : ∃ s1, (if x = (s.ar r).sa ∨ x = (s.ar r).sb then activate s (if (s.ar r).a = b then (s.ar r).b else (s.ar r).a) else some s) = some s1 ∧
        Good s1 ∧ WokenAll s s1 ∧ (onShape s x r → (s1.bd (if (s.ar r).a = b then (s.ar r).b else (s.ar r).a)).root = none) := by
      by_cases hc : x = (s.ar r).sa ∨ x = (s.ar r).sb
      · rw [if_pos hc]
        obtain ⟨s1, e1, H1, w1⟩ := activate_ok G.ok (if (s.ar r).a = b then (s.ar r).b else (s.ar r).a)
        exact ⟨s1, e1, G.woken H1 w1, w1.all, fun _ => w1.awakeB G.inv⟩
      · rw [if_neg hc]
        refine ⟨s, rfl, G, WokenAll.refl s, ?_⟩
        rintro (h | h)
        · exact absurd (Or.inl h.symm) hc
        · exact absurd (Or.inr h.symm) hc
    obtain ⟨s1, e1, G1, w1, a1⟩ := h1
    rw [e1]
    obtain ⟨s2, e2, G2, w2, a2⟩ := activateStatic_ok (b := b) (x := x) l s1 G1
    have har := w1.quiet.ar
    refine ⟨s2, e2, G2, w1.trans w2, ?_⟩
    · intro q hq hon
      rcases List.mem_cons.1 hq with rfl | hq
      · have := a1 hon
        rcases w2.root (if (s.ar q).a = b then (s.ar q).b else (s.ar q).a) with e | e
        · exact e
        · rw [e]; exact this
      · have := a2 q hq (by unfold onShape at *; rw [(har q).1, (har q).2.1]; exact hon)
        rwa [(har q).2.2.1, (har q).2.2.2.1] at this

/-- What removing the shape does. -/
structure ShapeGone (s s' : St K) (x : Nat) : Prop where
  sh : ∀ y, (s'.sh y).body = (s.sh y).body ∧ ((s'.sh y).space = true ↔ ((s.sh y).space = true ∧ y ≠ x))
  bd : ∀ c, (s'.bd c).kind = (s.bd c).kind ∧ (s'.bd c).cons = (s.bd c).cons ∧ (s'.bd c).space = (s.bd c).space
  shapes : ∀ c y, y ∈ (s'.bd c).shapes ↔ (y ∈ (s.bd c).shapes ∧ y ≠ x)
  cn : s'.cn = s.cn
  nb : s'.nb = s.nb
  stat : s'.stat = s.stat
  live : ∀ r, Sp.live s' r ↔ (Sp.live s r ∧ ¬ onShape s x r)
  pairs : ∀ r, (s'.ar r).sa = (s.ar r).sa ∧ (s'.ar r).sb = (s.ar r).sb
  state : ∀ r, Sp.live s' r → (s'.ar r).state = (s.ar r).state
  evs : ∃ l', s'.evs = l' ++ s.evs ∧ ∀ e, e ∈ l' ↔ ∃ r, Sp.live s r ∧ onShape s x r ∧ (s.ar r).state ≠ .cached ∧ e = .separate (s.ar r).sa (s.ar r).sb
  exact : swapRemove (s.bd (s.sh x).body).shapes x = (s'.bd (s.sh x).body).shapes
  order : ∀ c, c ≠ (s.sh x).body → (s'.bd c).shapes = (s.bd c).shapes
  woken : ∀ c, (s'.bd c).root = none ∨ (s'.bd c).root = (s.bd c).root
  held : ∀ r, thr s r → ((s'.bd (s.ar r).a).root ≠ none ∨ (s'.bd (s.ar r).b).root ≠ none) →
    thr s' r ∧ (s'.ar r).a = (s.ar r).a ∧ (s'.ar r).b = (s.ar r).b
  calm : ∀ c, (s'.bd c).root ≠ none → (s'.bd c).idle = (s.bd c).idle
  threshold : s'.threshold = s.threshold

theorem removeShape_good {s : St K} {x : Nat} (G : Good s) (hx : (s.sh x).space = true) :
    ∃ s', removeShape s x = some s' ∧ Good s' ∧ ShapeGone s s' x := by
  set b := (s.sh x).body with hb
  -- waking
  have hwake : ∃ s1, (if (s.bd b).kind = .static then activateStatic s b x (s.bd b).arbs else activate s b) = some s1 ∧ Good s1 ∧ WokenAll s s1 ∧
      ∀ r, live s1 r → onShape s1 x r → r ∈ s1.cached := by
    by_cases hst : (s.bd b).kind = .static
    · rw [if_pos hst]
      obtain ⟨s1, e1, G1, w1, a1⟩ := activateStatic_ok (b := b) (x := x) (s.bd b).arbs s G
      refine ⟨s1, e1, G1, w1, ?_⟩
      rintro r (hr | hr) hon
      · exact hr
      have har := w1.quiet.ar r
      have ht : thr s r := (w1.quiet.thr r).1 hr
      obtain ⟨p1, p2, _, _⟩ := G.inv.arbs.shp r (Or.inr ht)
      have hon' : onShape s x r := by unfold onShape at *; rw [har.1, har.2.1] at hon; exact hon
      have hab : (s.ar r).a = b ∨ (s.ar r).b = b := by
        rcases hon' with h | h
        · left; rw [p1, h]
        · right; rw [p2, h]
      have := a1 r ((G.inv.arbs.list b r).2 ⟨ht, hab⟩) hon'
      rw [G1.inv.arbs.cach r hr, off_nil, not_not, har.2.2.1, har.2.2.2.1]
      have hk := fun c => (w1.quiet.bd c).1
      by_cases ha : (s.ar r).a = b
      · rw [if_pos ha] at this
        unfold owner
        rw [if_pos (by rw [hk, ha]; exact hst)]; exact this
      · rw [if_neg ha] at this
        unfold owner
        split
        · have hb' : (s.ar r).b = b := by rcases hab with h | h; exact absurd h ha; exact h
          rw [hb']
          exact G1.inv.static_root (by rw [hk, hst]; simp)
        · exact this
    · rw [if_neg hst]
      obtain ⟨s1, e1, H1, w1⟩ := activate_ok G.ok b
      have G1 := G.woken H1 w1
      refine ⟨s1, e1, G1, w1.all, ?_⟩
      have hroot := w1.awakeB G.inv
      rintro r (hr | hr) hon
      · exact hr
      obtain ⟨p1, p2, _, _⟩ := G1.inv.arbs.shp r (Or.inr hr)
      have hk : (s1.bd b).kind ≠ .static := by rw [(w1.quiet.bd b).1]; exact hst
      have hsh := w1.quiet.sh
      obtain ⟨g1, g2⟩ := G1.inv.arbs.group r hr
      have hboth : (s1.bd (s1.ar r).a).root = none ∧ (s1.bd (s1.ar r).b).root = none := by
        rcases hon with h | h
        · have e : (s1.ar r).a = b := by rw [p1, h, hsh]
          have h1 : (s1.bd (s1.ar r).a).root = none := by rw [e]; exact hroot
          exact ⟨h1, g2.other (by rw [e]; exact hk) h1⟩
        · have e : (s1.ar r).b = b := by rw [p2, h, hsh]
          have h1 : (s1.bd (s1.ar r).b).root = none := by rw [e]; exact hroot
          exact ⟨g1.other (by rw [e]; exact hk) h1, h1⟩
      rw [G1.inv.arbs.cach r hr, off_nil, not_not]
      unfold owner; split
      · exact hboth.2
      · exact hboth.1
  obtain ⟨s1, e1, G1, w1, hcach⟩ := hwake
  have q := w1.quiet
  have hx1 : (s1.sh x).space = true := by rw [q.sh]; exact hx
  have hb1 : (s1.sh x).body = b := by rw [q.sh]
  obtain ⟨I2, E2, D2⟩ := filterArbs_inv (x := x) (b := b) s1.cached s1 s1.sleeping G1.inv G1.ev hb1 G1.inv.arbs.cachedN (fun _ h => h)
  set s2 := filterArbs s1 b x s1.cached with hs2
  have r2 := D2.rest
  have hlive2 : ∀ r, live s2 r ↔ (live s1 r ∧ ¬ onShape s1 x r) := by
    intro r; rw [D2.live]
    constructor
    · rintro ⟨h1, h2⟩; exact ⟨h1, fun h => h2 ⟨hcach r h1 h, h⟩⟩
    · rintro ⟨h1, h2⟩; exact ⟨h1, fun h => h2 h.2⟩
  have hsh2 : s2.sh = s1.sh := by rw [r2]
  have S := I2.shapes
  have hk2 : (s2.bd b).kind = (s.bd b).kind := by rw [(D2.bd b).1, (q.bd b).1]
  have hx2 : (s2.sh x).space = true := by rw [hsh2]; exact hx1
  have hbx : (s2.sh x).body = b := by rw [hsh2]; exact hb1
  have hxb : x ∈ (s2.bd b).shapes := by have := S.own x hx2; rwa [hbx] at this
  -- the body is awake
  have hroot2 : (s2.bd b).root = none := by
    rw [(D2.bd b).2.1]
    by_cases hst : (s.bd b).kind = .static
    · exact G1.inv.static_root (by rw [(q.bd b).1, hst]; simp)
    · rw [if_neg hst] at e1
      obtain ⟨s1', e1', H1', w1'⟩ := activate_ok G.ok b
      rw [e1] at e1'
      obtain rfl : s1 = s1' := by simpa using e1'
      exact w1'.awakeB G.inv
  have hfz2 : frozen s2 [] b ↔ (s.bd b).kind = .static := by
    unfold frozen; rw [off_nil, hroot2, hk2]; simp
  -- the result
  set s' : St K := ((({ s2 with
      statIdx := if (s.bd b).kind = .static then s2.statIdx.erase x else s2.statIdx,
      dynIdx := if (s.bd b).kind = .static then s2.dynIdx else s2.dynIdx.erase x } : St K).setB b fun d => { d with shapes := swapRemove d.shapes x }).setS x fun d => { d with space := false }) with hs'
  have er : s' = { s2 with bd := s'.bd, sh := s'.sh, statIdx := s'.statIdx, dynIdx := s'.dynIdx } := rfl
  have hbd : ∀ c, s'.bd c = if c = b then { s2.bd b with shapes := swapRemove (s2.bd b).shapes x } else s2.bd c := fun c => rfl
  have hsame : ∀ c, (s'.bd c).kind = (s2.bd c).kind ∧ (s'.bd c).root = (s2.bd c).root ∧ (s'.bd c).next = (s2.bd c).next ∧ (s'.bd c).arbs = (s2.bd c).arbs ∧
      (s'.bd c).cons = (s2.bd c).cons ∧ (s'.bd c).space = (s2.bd c).space ∧ (s'.bd c).idle = (s2.bd c).idle := by
    intro c; rw [hbd]; split
    · rename_i e; subst e; exact ⟨rfl, rfl, rfl, rfl, rfl, rfl, rfl⟩
    · exact ⟨rfl, rfl, rfl, rfl, rfl, rfl, rfl⟩
  have hsh : ∀ y, s'.sh y = if y = x then { s2.sh x with space := false } else s2.sh y := fun y => rfl
  have hbody : ∀ y, (s'.sh y).body = (s2.sh y).body := by
    intro y; rw [hsh]; split
    · rename_i e; rw [e]
    · rfl
  have hsp : ∀ y, (s'.sh y).space = true ↔ ((s2.sh y).space = true ∧ y ≠ x) := by
    intro y; rw [hsh]; split
    · rename_i e; simp [e]
    · rename_i e; simp [e]
  have hperm := swapRemove_perm hxb
  have hshp : ∀ c y, y ∈ (s'.bd c).shapes ↔ (y ∈ (s2.bd c).shapes ∧ y ≠ x) := by
    intro c y; rw [hbd]; split
    · rename_i e; rw [e]
      show y ∈ swapRemove _ _ ↔ _
      rw [hperm.mem_iff, (S.attN b).mem_erase_iff, and_comm]
    · rename_i e
      constructor
      · intro h; exact ⟨h, by rintro rfl; exact e ((S.att c y h).symm.trans hbx)⟩
      · exact fun h => h.1
  have hk := fun c => (hsame c).1
  have hr := fun c => (hsame c).2.1
  have hfz : ∀ c, frozen s' [] c ↔ frozen s2 [] c := frozen_congr hk hr
  have hofs : ∀ c, off s' [] c ↔ off s2 [] c := off_congr hr
  have hsl : s'.sleeping = s1.sleeping := by rw [er, r2]
  have hthr : ∀ r, thr s' r ↔ thr s2 r := by intro r; show r ∈ (s'.bd (s2.ar r).a).arbs ↔ _; rw [(hsame _).2.2.2.1]; exact Iff.rfl
  have hl : ∀ r, live s' r ↔ live s2 r := by intro r; show (r ∈ s2.cached ∨ thr s' r) ↔ _; rw [hthr]; exact Iff.rfl
  have I' : Inv s' s1.sleeping [] [] := by
    refine ⟨?_, ?_, ?_, ?_, ?_⟩
    · exact I2.groups.congr hk hr (fun c => (hsame c).2.2.1) (fun c => (hsame c).2.2.2.2.2.1) rfl
    · exact I2.blists.congr hk hr (fun c => (hsame c).2.2.2.2.2.1) rfl rfl
    · refine ⟨?_, ?_, ?_, ?_, ?_, ?_, ?_, ?_, ?_⟩
      · show (if (s.bd b).kind = .static then s2.dynIdx else s2.dynIdx.erase x).Nodup
        split
        · exact S.dynN
        · exact S.dynN.erase x
      · show (if (s.bd b).kind = .static then s2.statIdx.erase x else s2.statIdx).Nodup
        split
        · exact S.statN.erase x
        · exact S.statN
      · intro y
        show y ∈ (if (s.bd b).kind = .static then s2.dynIdx else s2.dynIdx.erase x) ↔ _
        rw [hsp, hbody, hfz]
        split
        · rename_i hst
          rw [S.dyn]
          constructor
          · rintro ⟨h1, h2⟩; exact ⟨⟨h1, by rintro rfl; exact h2 (by rw [hbx]; exact hfz2.2 hst)⟩, h2⟩
          · rintro ⟨⟨h1, _⟩, h2⟩; exact ⟨h1, h2⟩
        · rw [S.dynN.mem_erase_iff, S.dyn]; tauto
      · intro y
        show y ∈ (if (s.bd b).kind = .static then s2.statIdx.erase x else s2.statIdx) ↔ _
        rw [hsp, hbody, hfz]
        split
        · rw [S.statN.mem_erase_iff, S.stat]; tauto
        · rename_i hst
          rw [S.stat]
          constructor
          · rintro ⟨h1, h2⟩; exact ⟨⟨h1, by rintro rfl; rw [hbx] at h2; exact hst (hfz2.1 h2)⟩, h2⟩
          · rintro ⟨⟨h1, _⟩, h2⟩; exact ⟨h1, h2⟩
      · intro c y hy
        rw [hbody]; exact S.att c y ((hshp c y).1 hy).1
      · intro c
        rw [hbd]; split
        · exact hperm.nodup_iff.2 ((S.attN b).erase x)
        · exact S.attN c
      · intro y hy
        obtain ⟨h1, h2⟩ := (hsp y).1 hy
        rw [hbody, hshp]; exact ⟨S.own y h1, h2⟩
      · intro c y ho hy
        rw [hofs] at ho
        obtain ⟨h1, h2⟩ := (hshp c y).1 hy
        rw [hsp]; exact ⟨S.full c y ho h1, h2⟩
      · intro y hy
        rw [hbody, hk, (hsame _).2.2.2.2.2.1]; exact S.home y ((hsp y).1 hy).1
    · exact I2.joints.congr hk hr (fun c => (hsame c).2.2.2.2.2.1) (fun c => (hsame c).2.2.2.2.1) rfl rfl
    · have A := I2.arbs
      have how : ∀ p q, owner s' p q = owner s2 p q := owner_congr hk
      refine ⟨A.arbN, A.cachedN, A.pendN, ?_, ?_, ?_, by simp, ?_, ?_, ?_, ?_, ?_, ?_⟩
      · intro r
        show r ∈ s2.arbiters ↔ _
        rw [A.arb, hthr, hofs, how]; exact Iff.rfl
      · intro c r; rw [(hsame c).2.2.2.1, hthr]; exact A.list c r
      · intro c; rw [(hsame c).2.2.2.1]; exact A.listN c
      · intro r; rw [hthr, hofs, how]; exact A.cach r
      · intro r; rw [hl]; exact A.ne r
      · intro r hr'
        have hr2 := (hl r).1 hr'
        obtain ⟨a1, a2, a3, a4⟩ := A.shp r hr2
        have hno : ¬ onShape s2 x r := by
          have := ((hlive2 r).1 hr2).2
          unfold onShape at *; rw [(D2.pairs r).1, (D2.pairs r).2]; exact this
        show (s2.ar r).a = (s'.sh (s2.ar r).sa).body ∧ (s2.ar r).b = (s'.sh (s2.ar r).sb).body ∧ (s'.sh (s2.ar r).sa).space = true ∧ (s'.sh (s2.ar r).sb).space = true
        rw [hbody, hbody, hsp, hsp]
        exact ⟨a1, a2, ⟨a3, fun e => hno (Or.inl e)⟩, ⟨a4, fun e => hno (Or.inr e)⟩⟩
      · intro r r'; rw [hl, hl]; exact A.uniq r r'
      · intro r; rw [hthr]
        intro h'
        obtain ⟨g1, g2⟩ := A.group r h'
        exact ⟨g1.congr hr hk, g2.congr hr hk⟩
      · intro r; rw [hl]; exact A.ids r
  refine ⟨s', ?_, ⟨⟨?_, ?_, ?_⟩, ?_, ?_, ?_, ?_, ?_, ?_⟩, ?_⟩
  · -- the call
    have hxidx : ((s.bd b).kind = .static → x ∈ s2.statIdx) ∧ ((s.bd b).kind ≠ .static → x ∈ s2.dynIdx) := by
      constructor
      · intro hst; rw [S.stat, hbx]; exact ⟨hx2, hfz2.2 hst⟩
      · intro hst; rw [S.dyn, hbx]; exact ⟨hx2, fun h => hst (hfz2.1 h)⟩
    simp only [removeShape, ← hb, decide_eq_true_eq]
    rw [e1]
    simp only
    have hcm : (s1.setB b fun d => { d with shapes := swapRemove d.shapes x }).cached = s1.cached := rfl
    rw [hcm, filterArbs_shapes b x (fun l => swapRemove l x) s1.cached s1, ← hs2]
    by_cases hst : (s.bd b).kind = .static
    · simp only [hst, if_true, idxRemove, St.setB]
      rw [if_pos (hxidx.1 hst)]
      simp only [hs', hst, if_true, St.setB, St.setS]
    · simp only [hst, if_false, idxRemove, St.setB]
      rw [if_pos (hxidx.2 hst)]
      simp only [hs', hst, if_false, St.setB, St.setS]
  · have hro : s'.roused = [] := by rw [er, r2]; exact G1.roused
    rw [hro, hsl]; exact I'
  · have hro : s'.roused = [] := by rw [er, r2]; exact G1.roused
    rw [hro]; simp
  · intro _; rw [er, r2]; exact G1.roused
  · exact E2.congr hl hthr (fun r => ⟨rfl, rfl, rfl⟩) rfl (fun r _ h => h) rfl rfl
  · rw [er, r2]; exact G1.unlocked
  · intro c; rw [hk, (hsame c).2.2.2.2.2.2, (D2.bd c).1, (D2.bd c).2.2.2.2.2.2]; exact G1.kin c
  · intro ht c
    rw [hr, (D2.bd c).2.1]
    apply G1.never
    rw [er, r2] at ht; exact ht
  · rw [er, r2]; exact G1.per
  · have : s'.threshold = s1.threshold := by rw [er, r2]
    rw [this]; exact G1.th
  · have hlive1 : ∀ r, live s1 r ↔ live s r := q.live
    have hon1 : ∀ r, onShape s1 x r ↔ onShape s x r := by intro r; simp only [onShape, (q.ar r).1, (q.ar r).2.1]
    have hst1 : ∀ r, (s1.ar r).state = (s.ar r).state := fun r => (q.ar r).2.2.2.2.1
    refine ⟨?_, ?_, ?_, ?_, ?_, ?_, ?_, ?_, ?_, ?_, ?_, ?_, ?_, ?_, fun c hc => ?_, ?_⟩
    rotate_left 14
    · rw [hr, (D2.bd c).2.1] at hc
      rw [(hsame c).2.2.2.2.2.2, (D2.bd c).2.2.2.2.2.2]; exact w1.rest c hc
    · rw [er, r2]; exact q.threshold
    · intro y; rw [hbody, hsp, hsh2, q.sh]; exact ⟨rfl, Iff.rfl⟩
    · intro c
      have hD := D2.bd c
      have hq := q.bd c
      exact ⟨((hsame c).1.trans hD.1).trans hq.1, ((hsame c).2.2.2.2.1.trans hD.2.2.2.2.1).trans hq.2.2.2.1, ((hsame c).2.2.2.2.2.1.trans hD.2.2.2.2.2.1).trans hq.2.2.2.2⟩
    · intro c y; rw [hshp, (D2.bd c).2.2.2.1, (q.bd c).2.1]
    · rw [er, r2]; exact q.cn
    · rw [er, r2]; exact q.nb
    · rw [er, r2]; exact q.stat
    · intro r; rw [hl, hlive2, hlive1, hon1]
    · intro r
      exact ⟨(D2.pairs r).1.trans (q.ar r).1, (D2.pairs r).2.trans (q.ar r).2.1⟩
    · intro r hr'
      show (s2.ar r).state = _
      rw [D2.ar r ((hl r).1 hr')]; exact hst1 r
    · obtain ⟨l', e', m'⟩ := D2.evs
      refine ⟨l', ?_, ?_⟩
      · show s2.evs = _
        rw [e', q.evs]
      · intro e
        rw [m']
        constructor
        · rintro ⟨r, h1, h2, h3, h4⟩
          rw [(q.ar r).1, (q.ar r).2.1] at h4
          exact ⟨r, (hlive1 r).1 (Or.inl h1), (hon1 r).1 h2, by rw [← hst1]; exact h3, h4⟩
        · rintro ⟨r, h1, h2, h3, h4⟩
          refine ⟨r, hcach r ((hlive1 r).2 h1) ((hon1 r).2 h2), (hon1 r).2 h2, by rw [hst1]; exact h3, ?_⟩
          rw [(q.ar r).1, (q.ar r).2.1]; exact h4
    · rw [hbd, if_pos rfl]
      show _ = swapRemove (s2.bd b).shapes x
      rw [(D2.bd b).2.2.2.1, (q.bd b).2.1]
    · intro c hc
      rw [hbd, if_neg hc, (D2.bd c).2.2.2.1, (q.bd c).2.1]
    · intro c
      rw [hr, (D2.bd c).2.1]; exact w1.root c
    · intro r ht ho
      have ht1 : thr s1 r := (q.thr r).2 ht
      have hnc : r ∉ s1.cached := by
        intro hc
        have h1 := (G1.inv.arbs.cach r ht1).1 hc
        obtain ⟨g1, g2⟩ := G1.inv.arbs.group r ht1
        have := awake_both G1.inv g1 g2 h1
        rw [(q.ar r).2.2.1, (q.ar r).2.2.2.1] at this
        rw [hr, hr, (D2.bd _).2.1, (D2.bd _).2.1] at ho
        rcases ho with ho | ho
        · exact ho this.1
        · exact ho this.2
      have hl' : live s' r := by
        rw [hl, hlive2]
        exact ⟨Or.inr ht1, fun h => hnc (hcach r (Or.inr ht1) h)⟩
      have hr2 := (hl r).1 hl'
      refine ⟨?_, ?_, ?_⟩
      · rw [hthr]
        rcases hr2 with h | h
        · exact absurd ((D2.cached r).1 h).1 hnc
        · exact h
      · show (s2.ar r).a = _
        rw [D2.ar r hr2, (q.ar r).2.2.1]
      · show (s2.ar r).b = _
        rw [D2.ar r hr2, (q.ar r).2.2.2.1]

end Sp
end Cm
