import Verif.Proofs.SpaceReset

/-! # Pairs found touching -/
set_option linter.unusedSectionVars false
set_option linter.unusedSimpArgs false
set_option linter.unusedVariables false
set_option linter.unusedTactic false
set_option linter.unreachableTactic false

namespace Cm
namespace Sp
open Spec
variable {K : Type} [Zero K]

/-- Waking a body that is awake changes idle times only. -/
theorem activate_awake {s : St K} {b : Nat} (h : (s.bd b).root = none) : ∃ s', activate s b = some s' ∧ SameI s s' ∧
    ∀ c, (s'.bd c).idle = 0 ∨ (s'.bd c).idle = (s.bd c).idle := by
  by_cases hk : (s.bd b).kind = .dynamic
  swap
  · exact ⟨s, by simp [activate, hk], SameI.refl s, fun _ => Or.inr rfl⟩
  unfold activate
  rw [if_neg (by simp [hk])]
  simp only
  set s1 := s.setB b fun d => { d with idle := 0 } with hs1
  have hsame : SameI s s1 := SameI.setB_idle s b (fun _ => 0)
  have hr1 : (s1.bd b).root = none := by rw [(hsame.bd b).2.1]; exact h
  rw [hr1]
  simp only
  obtain ⟨t1, t2⟩ := touchIdle_same (s1.bd b).arbs s1 b
  refine ⟨_, rfl, hsame.trans t1, fun c => ?_⟩
  rcases t2 c with e | e
  · exact Or.inl e
  · rw [e]
    by_cases hc : c = b
    · left; rw [hc]; simp [hs1, St.setB]
    · right; simp [hs1, St.setB, hc]

theorem activateAll_awake : ∀ (l : List Nat) (s : St K), (∀ b ∈ l, (s.bd b).root = none) →
    ∃ s', activateAll s l = some s' ∧ SameI s s' ∧ ∀ c, (s'.bd c).idle = 0 ∨ (s'.bd c).idle = (s.bd c).idle
  | [], s, _ => ⟨s, rfl, SameI.refl s, fun _ => Or.inr rfl⟩
  | b :: l, s, h => by
    obtain ⟨s1, e1, q1, i1⟩ := activate_awake (h b (by simp))
    obtain ⟨s2, e2, q2, i2⟩ := activateAll_awake l s1 (fun c hc => by rw [(q1.bd c).2.1]; exact h c (by simp [hc]))
    refine ⟨s2, by simp only [activateAll, e1, e2], q1.trans q2, fun c => ?_⟩
    rcases i2 c with e | e
    · exact Or.inl e
    · rw [e]; exact i1 c

theorem activateAll_calm : ∀ (l : List Nat) (s s' : St K) (P : List Nat), Ok s P → activateAll s l = some s' →
    (∀ c, (s'.bd c).root = none ∨ (s'.bd c).root = (s.bd c).root) ∧ ∀ c, (s'.bd c).root ≠ none → (s'.bd c).idle = (s.bd c).idle
  | [], s, s', P, _, e => by
    rw [activateAll, Option.some.injEq] at e; rw [← e]; exact ⟨fun _ => Or.inr rfl, fun _ _ => rfl⟩
  | b :: l, s, s', P, H, e => by
    obtain ⟨s1, e1, H1, w1⟩ := activate_ok H b
    simp only [activateAll, e1] at e
    obtain ⟨h1, h2⟩ := activateAll_calm l s1 s' P H1 e
    refine ⟨fun c => ?_, fun c hc => ?_⟩
    · rcases h1 c with h | h
      · exact Or.inl h
      · rw [h, w1.root]; split
        · exact Or.inl rfl
        · exact Or.inr rfl
    · rw [h2 c hc]
      refine w1.rest c ?_
      rcases h1 c with h | h
      · exact absurd h hc
      · rw [← h]; exact hc

/-- What the broad phase reports: two shapes of the space on different bodies, not both at rest, and the callbacks
called for the pair do not wake a sleeping body. -/
structure HitOk (s : St K) (h : Hit) : Prop where
  x : (s.sh h.x).space = true
  y : (s.sh h.y).space = true
  ne : (s.sh h.x).body ≠ (s.sh h.y).body
  active : ¬ (frozen s [] (s.sh h.x).body ∧ frozen s [] (s.sh h.y).body)
  wake : ∀ b ∈ h.wake, (s.bd b).root = none

/-- The same two shapes. -/
def Hit.same (h k : Hit) : Prop := (h.x = k.x ∧ h.y = k.y) ∨ (h.x = k.y ∧ h.y = k.x)

/-- The state of the collision after a hit, from its state before. -/
def hitState (st : ArbState) (h : Hit) (acc : Bool) : ArbState :=
  if st = .ignore then .ignore
  else if (st = .first ∨ st = .cached) ∧ h.begin = false then .ignore
  else if h.ignore then .ignore
  else if acc then (if st = .cached then .first else st) else .normal

/-- The calls for a hit, the latest first. -/
def hitEvs (st : ArbState) (h : Hit) : List Ev :=
  if st = .ignore then []
  else if st = .first ∨ st = .cached then
    (if h.begin then [.pre h.x h.y (!h.ignore), .begin h.x h.y true] else [.begin h.x h.y false])
  else [.pre h.x h.y (!h.ignore)]

/-- The collision goes to the solver. -/
def hitAcc (s : St K) (st : ArbState) (h : Hit) : Bool :=
  decide (st ≠ .ignore) && (!decide (st = .first ∨ st = .cached) || h.begin) && !h.ignore && h.pre &&
    !((s.sh h.x).sensor || (s.sh h.y).sensor) &&
    !(decide ((s.bd (s.sh h.x).body).kind ≠ .dynamic) && decide ((s.bd (s.sh h.y).body).kind ≠ .dynamic))

/-- The state after a hit whose collision is `r`, before the callbacks wake bodies. -/
def afterHit (s0 : St K) (r : Nat) (h : Hit) : St K :=
  { s0 with
    ar := fun z => if z = r then ⟨h.x, h.y, (s0.sh h.x).body, (s0.sh h.y).body, hitState (s0.ar r).state h (hitAcc s0 (s0.ar r).state h),
      s0.stamp, if hitAcc s0 (s0.ar r).state h then h.count else 0⟩ else s0.ar z
    evs := hitEvs (s0.ar r).state h ++ s0.evs
    arbiters := if hitAcc s0 (s0.ar r).state h then s0.arbiters ++ [r] else s0.arbiters }

theorem setA_eq (s : St K) (r : Nat) (f : Ar → Ar) : s.setA r f = { s with ar := fun x => if x = r then f (s.ar r) else s.ar x } := rfl

theorem ite_self_ar (r : Nat) (a b : Ar) (g : Nat → Ar) (f : Ar → Ar) :
    (fun x => if x = r then f (if r = r then a else b) else (if x = r then a else g x)) = fun x => if x = r then f a else g x := by
  funext x; by_cases h : x = r <;> simp [h]

theorem collide_eq (s : St K) (h : Hit) :
    collide s h = activateAll (afterHit (findArb s h.x h.y).1 (findArb s h.x h.y).2 h) h.wake := by
  rw [collide]
  generalize findArb s h.x h.y = p
  obtain ⟨s0, r⟩ := p
  simp only
  congr 1
  obtain ⟨hx, hy, hcount, hbegin, hpre, hignore, hwake⟩ := h
  simp only
  cases hst : (s0.ar r).state <;> cases hbegin <;> cases hignore <;>
    simp [updateArb, setA_eq, hst, afterHit, hitState, hitAcc, hitEvs] <;>
    (try split) <;> (try simp_all) <;> (try funext x) <;> (try split) <;> simp_all

/-! ### The invariant while pairs are found -/

/-- `P` are the collisions accepted so far. -/
structure Mid (s : St K) (P : List Nat) : Prop where
  inv : Inv s s.sleeping [] P
  ev : EvI s P
  roused : s.roused = []
  list : s.arbiters = P
  dormant : ∀ r, thr s r → off s [] (owner s (s.ar r).a (s.ar r).b)
  stamps : ∀ r ∈ s.arbiters, (s.ar r).stamp = s.stamp

/-- What finding pairs leaves as it is. -/
structure MidF (s s' : St K) : Prop where
  rest : s' = { s with bd := s'.bd, ar := s'.ar, arbiters := s'.arbiters, cached := s'.cached, fresh := s'.fresh, evs := s'.evs }
  bd : SameB s s'
  idle : ∀ b, (s'.bd b).idle = 0 ∨ (s'.bd b).idle = (s.bd b).idle
  calm : ∀ b, (s'.bd b).root ≠ none → (s'.bd b).idle = (s.bd b).idle
  thr : ∀ r, thr s' r ↔ thr s r
  old : ∀ r, live s r → live s' r

theorem MidF.trans {s t u : St K} (h : MidF s t) (k : MidF t u) : MidF s u := by
  refine ⟨by rw [k.rest, h.rest], fun b => ?_, fun b => ?_, fun b hb => (k.calm b hb).trans (h.calm b (by rw [← (k.bd b).2.1]; exact hb)), fun r => (k.thr r).trans (h.thr r), fun r hr => k.old r (h.old r hr)⟩
  · obtain ⟨a1, a2, a3, a4, a5, a6, a7⟩ := h.bd b
    obtain ⟨b1, b2, b3, b4, b5, b6, b7⟩ := k.bd b
    exact ⟨b1.trans a1, b2.trans a2, b3.trans a3, b4.trans a4, b5.trans a5, b6.trans a6, b7.trans a7⟩
  · rcases k.idle b with e | e
    · exact Or.inl e
    · rw [e]; exact h.idle b

theorem MidF.frozen {s s' : St K} (h : MidF s s') (b : Nat) : frozen s' [] b ↔ frozen s [] b :=
  frozen_congr (fun b => (h.bd b).1) (fun b => (h.bd b).2.1) b

theorem HitOk.frame {s s' : St K} {h : Hit} (k : HitOk s h) (f : MidF s s') : HitOk s' h := by
  have e : s'.sh = s.sh := by rw [f.rest]
  refine ⟨by rw [e]; exact k.x, by rw [e]; exact k.y, by rw [e]; exact k.ne, by rw [e, f.frozen, f.frozen]; exact k.active, ?_⟩
  intro b hb; rw [(f.bd b).2.1]; exact k.wake b hb

theorem lookup_some {s : St K} {x y r : Nat} (h : s.lookup x y = some r) : r ∈ s.cached ∧ (s.ar r).isPair x y = true :=
  ⟨List.mem_of_find?_eq_some h, by have := List.find?_some h; simpa using this⟩

theorem lookup_none {s : St K} {x y : Nat} (h : s.lookup x y = none) : ∀ r ∈ s.cached, (s.ar r).isPair x y = false := by
  intro r hr
  have := List.find?_eq_none.1 h r hr
  simpa using this

/-- A collision that is not in the cache, or in the lists of its bodies, has shapes at rest. -/
theorem Mid.notThr {s : St K} {P : List Nat} (M : Mid s P) {h : Hit} (k : HitOk s h) {r : Nat} (hp : (s.ar r).isPair h.x h.y = true) : ¬ thr s r := by
  intro ht
  obtain ⟨g1, g2⟩ := M.inv.arbs.group r ht
  obtain ⟨f1, f2⟩ := frozen_both g1 g2 (M.dormant r ht)
  obtain ⟨e1, e2, _⟩ := M.inv.arbs.shp r (Or.inr ht)
  rw [e1] at f1; rw [e2] at f2
  apply k.active
  rcases isPair_iff.1 hp with ⟨h1, h2⟩ | ⟨h1, h2⟩
  · rw [h1] at f1; rw [h2] at f2; exact ⟨f1, f2⟩
  · rw [h1] at f1; rw [h2] at f2; exact ⟨f2, f1⟩

/-- What is known of the collision a hit is about, once found or made. -/
structure Found (s s0 : St K) (P : List Nat) (h : Hit) (r : Nat) : Prop where
  rest : s0 = { s with ar := s0.ar, cached := s0.cached, fresh := s0.fresh }
  ar : ∀ q, q ≠ r → s0.ar q = s.ar q
  cachedN : s0.cached.Nodup
  cached : ∀ q, q ∈ s0.cached ↔ (q ∈ s.cached ∨ q = r)
  fresh : s.fresh ≤ s0.fresh ∧ r < s0.fresh ∧ r ∉ s.pool
  thr : ¬ thr s r
  lists : ∀ b, r ∉ (s.bd b).arbs
  pend : r ∉ P
  uniq : ∀ q, live s q → q ≠ r → (s.ar q).isPair h.x h.y = false
  phase : phase h.x h.y s.evs = some (if (s0.ar r).state = .first then .apart else phaseOf (s0.ar r).state)
  same : live s r → s0.ar r = s.ar r ∧ (s.ar r).isPair h.x h.y = true

theorem findArb_found {s : St K} {P : List Nat} (M : Mid s P) {h : Hit} (k : HitOk s h) (hP : ∀ r ∈ P, (s.ar r).isPair h.x h.y = false) :
    Found s (findArb s h.x h.y).1 P h (findArb s h.x h.y).2 := by
  have A := M.inv.arbs
  unfold findArb
  cases hl : s.lookup h.x h.y with
  | some r =>
    simp only
    obtain ⟨hc, hp⟩ := lookup_some hl
    have ht := M.notThr k hp
    have hrP : r ∉ P := fun hr => by rw [hP r hr] at hp; cases hp
    have hlive : live s r := Or.inl hc
    refine ⟨rfl, fun _ _ => rfl, A.cachedN, fun q => ⟨Or.inl, fun h => h.elim id (by rintro rfl; exact hc)⟩, ⟨le_refl _, (A.ids r hlive).1, (A.ids r hlive).2⟩,
      ht, fun b hb => ht ((A.list b r).1 hb).1, hrP, ?_, ?_, fun _ => ⟨rfl, hp⟩⟩
    · intro q hq hne
      by_contra hcon
      simp only [Bool.not_eq_false] at hcon
      apply hne
      apply A.uniq q r hq hlive
      rcases isPair_iff.1 hp with ⟨h1, h2⟩ | ⟨h1, h2⟩
      · rw [h1, h2]; exact hcon
      · rw [h1, h2, isPair_comm]; exact hcon
    · rw [M.ev.pair hlive hp]
      have : (s.ar r).state ≠ .first := by
        intro e
        rcases M.ev.first r hlive e with h | h
        · exact hrP h
        · exact ht h
      rw [if_neg this]
  | none =>
    simp only
    have hnew : ¬ live s s.fresh := fun h => absurd (A.ids _ h).1 (lt_irrefl _)
    have hno : ∀ q, live s q → (s.ar q).isPair h.x h.y = false := by
      intro q hq
      by_contra hcon
      simp only [Bool.not_eq_false] at hcon
      rcases hq with hq | hq
      · rw [lookup_none hl q hq] at hcon; cases hcon
      · exact M.notThr k hcon hq
    refine ⟨rfl, fun q hq => by simp [hq], ?_, fun q => by simp [or_comm], ⟨by simp, by simp, ?_⟩, fun h => hnew (Or.inr h),
      fun b hb => hnew (Or.inr ((A.list b _).1 hb).1), fun h => hnew (Or.inl (A.pend _ h).1), fun q hq _ => hno q hq, ?_, fun h => absurd h hnew⟩
    · rw [List.nodup_cons]; exact ⟨fun h => hnew (Or.inl h), A.cachedN⟩
    · intro h; exact absurd (M.ev.pool _ h) (lt_irrefl _)
    · rw [M.ev.rest h.x h.y hno]; simp

theorem hitEvs_about {st : ArbState} {h : Hit} {x y : Nat} (hn : ¬ ((h.x = x ∧ h.y = y) ∨ (h.x = y ∧ h.y = x))) (l : List Ev) :
    Spec.phase x y (hitEvs st h ++ l) = Spec.phase x y l := by
  have h1 : ∀ e : Ev, evPair e = (h.x, h.y) → about e x y = false := by
    intro e he
    by_contra hc
    simp only [about, he, Prod.mk.injEq, Bool.or_eq_true, decide_eq_true_eq, Bool.not_eq_false] at hc
    exact hn hc
  unfold hitEvs
  split
  · rfl
  · split
    · split
      · rw [List.cons_append, phase_other (h1 _ rfl), List.cons_append, phase_other (h1 _ rfl), List.nil_append]
      · rw [List.cons_append, phase_other (h1 _ rfl), List.nil_append]
    · rw [List.cons_append, phase_other (h1 _ rfl), List.nil_append]

theorem hitEvs_phase {st : ArbState} {h : Hit} {l : List Ev} {acc : Bool} (hp : Spec.phase h.x h.y l = some (if st = .first then .apart else phaseOf st)) :
    Spec.phase h.x h.y (hitEvs st h ++ l) = some (phaseOf (hitState st h acc)) := by
  have ha : ∀ e : Ev, evPair e = (h.x, h.y) → about e h.x h.y = true := by intro e he; simp [about, he]
  have h1 := ha (.begin h.x h.y true) rfl
  have h2 := ha (.begin h.x h.y false) rfl
  have h3 := fun b => ha (.pre h.x h.y b) rfl
  cases st <;> cases hb : h.begin <;> cases hi : h.ignore <;> cases acc <;>
    simp [hitEvs, hitState, hb, hi, Spec.phase, hp, h1, h2, h3, phaseOf, Phase.next]

theorem hitState_ne (st : ArbState) (h : Hit) (acc : Bool) : hitState st h acc ≠ .cached := by
  cases st <;> cases hb : h.begin <;> cases hi : h.ignore <;> cases acc <;> simp [hitState, hb, hi]

theorem hitState_first (st : ArbState) (h : Hit) : hitState st h false ≠ .first := by
  cases st <;> cases hb : h.begin <;> cases hi : h.ignore <;> simp [hitState, hb, hi]

theorem hitState_acc (s : St K) (st : ArbState) (h : Hit) (ha : hitAcc s st h = true) : hitState st h true ≠ .ignore := by
  unfold hitAcc at ha
  simp only [Bool.and_eq_true, decide_eq_true_eq, Bool.or_eq_true, Bool.not_eq_true', decide_eq_false_iff_not] at ha
  obtain ⟨⟨⟨⟨⟨h1, h2⟩, h3⟩, h4⟩, h5⟩, h6⟩ := ha
  unfold hitState
  rw [if_neg h1, if_neg, if_neg (by simp [h3]), if_pos rfl]
  · split
    · simp
    · exact h1
  · rintro ⟨h7, h8⟩
    rcases h2 with h | h
    · exact h h7
    · rw [h] at h8; cases h8

/-- The pair of the hit goes to the solver. -/
def solved (s : St K) (h : Hit) : Prop :=
  ∃ p, Spec.phase h.x h.y s.evs = some p ∧ accepts p h ((s.sh h.x).sensor || (s.sh h.y).sensor)
    (decide ((s.bd (s.sh h.x).body).kind ≠ .dynamic) && decide ((s.bd (s.sh h.y).body).kind ≠ .dynamic)) = true

theorem hitAcc_iff {s s0 : St K} {st : ArbState} {h : Hit} (hp : Spec.phase h.x h.y s.evs = some (if st = .first then .apart else phaseOf st))
    (hb : s0.bd = s.bd) (hs : s0.sh = s.sh) : hitAcc s0 st h = true ↔ solved s h := by
  have : solved s h ↔ accepts (if st = .first then .apart else phaseOf st) h ((s.sh h.x).sensor || (s.sh h.y).sensor)
    (decide ((s.bd (s.sh h.x).body).kind ≠ .dynamic) && decide ((s.bd (s.sh h.y).body).kind ≠ .dynamic)) = true := by
    unfold solved; rw [hp]
    constructor
    · rintro ⟨p, h1, h2⟩; rw [Option.some.injEq] at h1; rw [← h1] at h2; exact h2
    · intro h1; exact ⟨_, rfl, h1⟩
  rw [this]
  unfold hitAcc accepts
  rw [hb, hs]
  cases st <;> simp [phaseOf]

theorem hitEvs_calls (st : ArbState) (h : Hit) : hitEvs st h = calls (if st = .first then .apart else phaseOf st) h := by
  cases st <;> simp [hitEvs, calls, phaseOf]

/-- What is known after a hit. -/
structure HitDone (s s' : St K) (h : Hit) : Prop where
  frame : MidF s s'
  hit : ∃ r, live s' r ∧ (s'.ar r).isPair h.x h.y = true ∧ (s'.ar r).stamp = s'.stamp ∧ (s'.ar r).state ≠ .cached ∧
    (s'.ar r).sa = h.x ∧ (s'.ar r).sb = h.y
  other : ∀ r, live s' r → (s'.ar r).isPair h.x h.y = false → live s r ∧ s'.ar r = s.ar r
  keep : ∀ r, live s r → (s.ar r).isPair h.x h.y = false → s'.ar r = s.ar r
  evs : ∃ l, s'.evs = l ++ s.evs ∧ (∀ e ∈ l, evPair e = (h.x, h.y)) ∧ ∀ p, Spec.phase h.x h.y s.evs = some p → l = calls p h

theorem afterHit_mid {s : St K} {P : List Nat} (M : Mid s P) {h : Hit} (k : HitOk s h) (hP : ∀ r ∈ P, (s.ar r).isPair h.x h.y = false) :
    ∃ P', Mid (afterHit (findArb s h.x h.y).1 (findArb s h.x h.y).2 h) P' ∧
      HitDone s (afterHit (findArb s h.x h.y).1 (findArb s h.x h.y).2 h) h ∧
      ∀ q, q ∈ P' ↔ (q ∈ P ∨ (solved s h ∧ live (afterHit (findArb s h.x h.y).1 (findArb s h.x h.y).2 h) q ∧
        ((afterHit (findArb s h.x h.y).1 (findArb s h.x h.y).2 h).ar q).sa = h.x ∧ ((afterHit (findArb s h.x h.y).1 (findArb s h.x h.y).2 h).ar q).sb = h.y)) := by
  have F := findArb_found M k hP
  generalize (findArb s h.x h.y).1 = s0 at F
  generalize (findArb s h.x h.y).2 = r at F
  have A := M.inv.arbs
  set acc := hitAcc s0 (s0.ar r).state h with hacc
  set s1 := afterHit s0 r h with hs1
  -- without the list of accepted collisions
  set s2 : St K := { s1 with arbiters := s.arbiters } with hs2
  have e0 : s0.bd = s.bd ∧ s0.sh = s.sh ∧ s0.stamp = s.stamp ∧ s0.arbiters = s.arbiters ∧ s0.evs = s.evs ∧ s0.pool = s.pool := by
    rw [F.rest]; exact ⟨rfl, rfl, rfl, rfl, rfl, rfl⟩
  obtain ⟨ebd, esh, est, earb, eev, epool⟩ := e0
  have hrest1 : s1 = { s with ar := s1.ar, arbiters := s1.arbiters, cached := s1.cached, fresh := s1.fresh, evs := s1.evs } := by
    rw [hs1]; unfold afterHit; rw [F.rest]
  have hna : SameNA s s2 := by
    constructor
    case bd => intro b; rw [hs2, hrest1]; exact ⟨rfl, rfl, rfl, rfl, rfl, rfl⟩
    all_goals (rw [hs2, hrest1])
  have hbd1 : s1.bd = s.bd := by rw [hrest1]
  have har1 : s1.ar r = ⟨h.x, h.y, (s.sh h.x).body, (s.sh h.y).body, hitState (s0.ar r).state h acc, s.stamp, if acc then h.count else 0⟩ := by
    simp [hs1, afterHit, hacc, esh, est]
  have haro : ∀ q, q ≠ r → s1.ar q = s.ar q := by
    intro q hq; simp only [hs1, afterHit, if_neg hq]; exact F.ar q hq
  have hcach1 : s1.cached = s0.cached := rfl
  have hev1 : s1.evs = hitEvs (s0.ar r).state h ++ s.evs := by rw [← eev]; rfl
  have hst1 : s1.stamp = s.stamp := by rw [hrest1]
  have harb1 : s1.arbiters = if acc then s.arbiters ++ [r] else s.arbiters := by rw [← earb]; rfl
  have hT := M.inv.touch (s' := s2) (r := r) (x := h.x) (y := h.y) hna (fun b => by show (s1.bd b).arbs = _; rw [hbd1]) F.thr F.lists
    ⟨by show (s1.ar r).sa = _; rw [har1], by show (s1.ar r).sb = _; rw [har1], by show (s1.ar r).a = _; rw [har1], by show (s1.ar r).b = _; rw [har1]⟩
    (fun q hq => by show (s1.ar q).sa = _ ∧ (s1.ar q).sb = _ ∧ (s1.ar q).a = _ ∧ (s1.ar q).b = _; rw [haro q hq]; exact ⟨rfl, rfl, rfl, rfl⟩)
    k.x k.y k.ne F.uniq F.cachedN F.cached rfl ⟨F.fresh.1, F.fresh.2.1, by show r ∉ s1.pool; rw [hrest1]; exact F.fresh.2.2, by show s1.pool = _; rw [hrest1]⟩
  obtain ⟨I2, hthr2⟩ := hT
  have hthr : ∀ q, thr s1 q ↔ thr s q := by
    intro q
    show q ∈ (s1.bd (s1.ar q).a).arbs ↔ q ∈ (s.bd (s.ar q).a).arbs
    rw [hbd1]
    by_cases e : q = r
    · subst e; exact ⟨fun h => absurd h (F.lists _), fun h => absurd h (F.lists _)⟩
    · rw [haro q e]
  have hlive : ∀ q, live s1 q ↔ (live s q ∨ q = r) := by
    intro q
    show (q ∈ s0.cached ∨ thr s1 q) ↔ _
    rw [F.cached, hthr]
    constructor
    · rintro ((h | h) | h)
      · exact Or.inl (Or.inl h)
      · exact Or.inr h
      · exact Or.inl (Or.inr h)
    · rintro ((h | h) | h)
      · exact Or.inl (Or.inl h)
      · exact Or.inr h
      · exact Or.inl (Or.inr h)
  have hsl : s1.sleeping = s.sleeping := by rw [hrest1]
  have hro : s1.roused = s.roused := by rw [hrest1]
  set P' := if acc then P ++ [r] else P with hP'
  have hpr : (s1.ar r).isPair h.x h.y = true := by rw [har1]; simp [Ar.isPair]
  have I1 : Inv s1 s1.sleeping [] P' := by
    rw [hsl]
    by_cases ha : acc = true
    · have := I2.accept (r := r) ((F.cached r).2 (Or.inr rfl)) hthr2 F.pend
      rw [hP', if_pos ha]
      have e : ({ s2 with arbiters := s2.arbiters ++ [r] } : St K) = s1 := by
        show ({ s1 with arbiters := s.arbiters ++ [r] } : St K) = s1
        have : s1.arbiters = s.arbiters ++ [r] := by rw [harb1, if_pos ha]
        rw [← this]
      rw [e] at this; exact this
    · rw [hP', if_neg ha]
      have e : s2 = s1 := by
        show ({ s1 with arbiters := s.arbiters } : St K) = s1
        have : s1.arbiters = s.arbiters := by rw [harb1, if_neg ha]
        rw [← this]
      rw [e] at I2; exact I2
  have hmP' : ∀ q, q ∈ P' ↔ (q ∈ P ∨ (acc = true ∧ q = r)) := by
    intro q; rw [hP']
    by_cases ha : acc = true
    · simp [ha]
    · simp [ha]
  have hstr : (s1.ar r).state = hitState (s0.ar r).state h acc := by rw [har1]
  have hdiff : ∀ q, live s q → q ≠ r → ¬ ((h.x = (s.ar q).sa ∧ h.y = (s.ar q).sb) ∨ (h.x = (s.ar q).sb ∧ h.y = (s.ar q).sa)) := by
    intro q hq hne hc
    have := F.uniq q hq hne
    have h' : (s.ar q).isPair h.x h.y = true := by
      rw [isPair_iff]
      rcases hc with ⟨h1, h2⟩ | ⟨h1, h2⟩
      · exact Or.inl ⟨h1.symm, h2.symm⟩
      · exact Or.inr ⟨h2.symm, h1.symm⟩
    rw [this] at h'; cases h'
  have E1 : EvI s1 P' := by
    refine ⟨?_, ?_, ?_, ?_, ?_, ?_⟩
    · intro q hq
      rw [hev1]
      by_cases e : q = r
      · subst e
        rw [hstr, har1]
        exact hitEvs_phase F.phase
      · have hq' := ((hlive q).1 hq).resolve_right e
        rw [haro q e, hitEvs_about (hdiff q hq' e)]
        exact M.ev.live q hq'
    · intro x y hxy
      rw [hev1, hitEvs_about]
      · apply M.ev.rest
        intro q hq
        by_cases e : q = r
        · subst e
          have h1 := (F.same hq).2
          have h2 := hxy q ((hlive q).2 (Or.inr rfl))
          by_contra hc
          simp only [Bool.not_eq_false] at hc
          have h3 : (s1.ar q).isPair x y = true := by
            rw [isPair_iff] at h1 hc ⊢
            rw [har1]; simp only
            rcases h1 with ⟨a1, a2⟩ | ⟨a1, a2⟩ <;> rcases hc with ⟨b1, b2⟩ | ⟨b1, b2⟩
            · exact Or.inl ⟨a1.symm.trans b1, a2.symm.trans b2⟩
            · exact Or.inr ⟨a1.symm.trans b1, a2.symm.trans b2⟩
            · exact Or.inr ⟨a2.symm.trans b2, a1.symm.trans b1⟩
            · exact Or.inl ⟨a2.symm.trans b2, a1.symm.trans b1⟩
          rw [h2] at h3; cases h3
        · have := hxy q ((hlive q).2 (Or.inl hq))
          rw [haro q e] at this; exact this
      · intro hc
        have h2 := hxy r ((hlive r).2 (Or.inr rfl))
        have h3 : (s1.ar r).isPair x y = true := by rw [isPair_iff, har1]; exact hc
        rw [h2] at h3; cases h3
    · intro q hq
      rw [hthr, hmP'] at hq
      by_cases e : q = r
      · subst e
        have ha : acc = true := by
          rcases hq with h | h | h
          · exact absurd h F.thr
          · exact absurd h F.pend
          · exact h.1
        rw [hstr]
        refine ⟨hitState_ne _ _ _, ?_⟩
        rw [ha]
        exact hitState_acc s0 _ h ha
      · rw [haro q e]
        apply M.ev.used
        rcases hq with h | h | h
        · exact Or.inl h
        · exact Or.inr h
        · exact absurd h.2 e
    · intro q hq hf
      rw [hthr, hmP']
      by_cases e : q = r
      · subst e
        left; right
        refine ⟨?_, rfl⟩
        by_contra ha
        simp only [Bool.not_eq_true] at ha
        rw [hstr, ha] at hf
        exact hitState_first _ _ hf
      · rw [haro q e] at hf
        rcases M.ev.first q (((hlive q).1 hq).resolve_right e) hf with h | h
        · exact Or.inl (Or.inl h)
        · exact Or.inr h
    · intro q hq
      rw [hst1]
      by_cases e : q = r
      · subst e; rw [har1]
      · rw [haro q e]; exact M.ev.stamp q (((hlive q).1 hq).resolve_right e)
    · intro q hq
      have e1 : s1.pool = s.pool := by rw [hrest1]
      have e2 : s1.fresh = s0.fresh := rfl
      rw [e1] at hq
      rw [e2]
      exact lt_of_lt_of_le (M.ev.pool q hq) F.fresh.1
  refine ⟨P', ⟨I1, E1, by rw [hro]; exact M.roused, ?_, ?_, ?_⟩, ⟨⟨?_, ?_, ?_, fun b _ => by rw [hbd1], hthr, fun q hq => (hlive q).2 (Or.inl hq)⟩, ?_, ?_, ?_, ?_⟩, ?_⟩
  · rw [harb1, hP', M.list]
  · intro q hq
    rw [hthr] at hq
    have e : q ≠ r := by rintro rfl; exact F.thr hq
    rw [haro q e, off_congr (s := s) (fun b => by rw [hbd1]), owner_congr (s := s) (fun b => by rw [hbd1])]
    exact M.dormant q hq
  · intro q hq
    rw [hst1]
    by_cases e : q = r
    · subst e; rw [har1]
    · rw [haro q e]
      rw [harb1] at hq
      apply M.stamps
      by_cases ha : acc = true
      · rw [if_pos ha, List.mem_append, List.mem_singleton] at hq
        exact hq.resolve_right e
      · rw [if_neg ha] at hq; exact hq
  · conv_lhs => rw [hrest1]
    rw [hbd1]
  · intro b; rw [hbd1]; exact ⟨rfl, rfl, rfl, rfl, rfl, rfl, rfl⟩
  · intro b; rw [hbd1]; exact Or.inr rfl
  · exact ⟨r, (hlive r).2 (Or.inr rfl), hpr, by rw [har1, hst1], by rw [hstr]; exact hitState_ne _ _ _, by rw [har1], by rw [har1]⟩
  · intro q hq hp
    have e : q ≠ r := by rintro rfl; rw [hpr] at hp; cases hp
    exact ⟨((hlive q).1 hq).resolve_right e, haro q e⟩
  · intro q hq hp
    have e : q ≠ r := by rintro rfl; rw [(F.same hq).2] at hp; cases hp
    exact haro q e
  · refine ⟨_, hev1, ?_, ?_⟩
    swap
    · intro p hp
      rw [F.phase, Option.some.injEq] at hp
      rw [hitEvs_calls, hp]
    intro e he
    unfold hitEvs at he
    split at he
    · simp at he
    · split at he
      · split at he
        · simp at he; rcases he with rfl | rfl <;> rfl
        · simp at he; subst he; rfl
      · simp at he; subst he; rfl
  · intro q
    rw [hmP', hacc, hitAcc_iff F.phase ebd esh]
    constructor
    · rintro (h | h)
      · exact Or.inl h
      · right; rw [h.2]; exact ⟨h.1, (hlive r).2 (Or.inr rfl), by rw [har1], by rw [har1]⟩
    · rintro (h | ⟨h1, h2, h3, h4⟩)
      · exact Or.inl h
      · right
        refine ⟨h1, ?_⟩
        by_contra e
        have := F.uniq q (((hlive q).1 h2).resolve_right e) e
        rw [haro q e] at h3 h4
        simp [Ar.isPair, h3, h4] at this

theorem Mid.sameI {s s' : St K} {P : List Nat} (M : Mid s P) (q : SameI s s') : Mid s' P := by
  have e := q.rest
  have hq := q.quiet
  refine ⟨?_, M.ev.quiet hq, by rw [e]; exact M.roused, by rw [e]; exact M.list, ?_, ?_⟩
  · have := M.inv.congr q.all
    have e2 : s'.sleeping = s.sleeping := by rw [e]
    rw [e2]; exact this
  · intro r hr
    rw [hq.thr] at hr
    have := M.dormant r hr
    rw [off_congr (s := s) (fun b => (q.bd b).2.1), owner_congr (s := s) (fun b => (q.bd b).1), (hq.ar r).2.2.1, (hq.ar r).2.2.2.1]
    exact this
  · rw [e]; exact M.stamps

theorem collide_mid {s : St K} {P : List Nat} (M : Mid s P) {h : Hit} (k : HitOk s h) (hP : ∀ r ∈ P, (s.ar r).isPair h.x h.y = false) :
    ∃ s' P', collide s h = some s' ∧ Mid s' P' ∧ HitDone s s' h ∧
      ∀ q, q ∈ P' ↔ (q ∈ P ∨ (solved s h ∧ live s' q ∧ (s'.ar q).sa = h.x ∧ (s'.ar q).sb = h.y)) := by
  rw [collide_eq]
  obtain ⟨P', M1, D1, hP1⟩ := afterHit_mid M k hP
  generalize afterHit (findArb s h.x h.y).1 (findArb s h.x h.y).2 h = s1 at M1 D1 hP1
  obtain ⟨s2, e2, q2, i2⟩ := activateAll_awake h.wake s1 (fun b hb => by rw [(D1.frame.bd b).2.1]; exact k.wake b hb)
  have hq := q2.quiet
  have er := q2.rest
  have hf : MidF s1 s2 := by
    refine ⟨?_, q2.bd, i2, (activateAll_calm h.wake s1 s2 P' ⟨by rw [M1.roused]; exact M1.inv, by rw [M1.roused]; simp, fun _ => M1.roused⟩ e2).2, hq.thr, fun r => (hq.live r).2⟩
    rw [er]
  have har : s2.ar = s1.ar := by rw [er]
  refine ⟨s2, P', e2, M1.sameI q2, ⟨D1.frame.trans hf, ?_, ?_, ?_, ?_⟩, ?_⟩
  · obtain ⟨r, h1, h2, h3, h4, h5⟩ := D1.hit
    have e3 : s2.stamp = s1.stamp := by rw [er]
    exact ⟨r, (hq.live r).2 h1, by rw [har]; exact h2, by rw [har, e3]; exact h3, by rw [har]; exact h4, by rw [har]; exact h5⟩
  · intro r hr hp
    rw [har] at hp ⊢
    exact D1.other r ((hq.live r).1 hr) hp
  · intro r hr hp
    rw [har]
    exact D1.keep r hr hp
  · have e3 : s2.evs = s1.evs := by rw [er]
    rw [e3]; exact D1.evs
  · intro q; rw [har, hP1, hq.live]

/-- What is known after all hits. -/
structure HitsDone (s s' : St K) (l : List Hit) : Prop where
  frame : MidF s s'
  hit : ∀ h ∈ l, ∃ r, live s' r ∧ (s'.ar r).isPair h.x h.y = true ∧ (s'.ar r).stamp = s'.stamp ∧ (s'.ar r).state ≠ .cached ∧
    (s'.ar r).sa = h.x ∧ (s'.ar r).sb = h.y
  other : ∀ r, live s' r → (∀ h ∈ l, (s'.ar r).isPair h.x h.y = false) → live s r ∧ s'.ar r = s.ar r
  keep : ∀ r, live s r → (∀ h ∈ l, (s.ar r).isPair h.x h.y = false) → s'.ar r = s.ar r
  evs : ∃ l', s'.evs = l' ++ s.evs ∧ (∀ e ∈ l', ∃ h ∈ l, evPair e = (h.x, h.y)) ∧
    ∀ h ∈ l, ∀ p, Spec.phase h.x h.y s.evs = some p → l'.filter (fun e => about e h.x h.y) = calls p h

theorem Hit.same_pair {h k : Hit} {r : Ar} (h1 : r.isPair h.x h.y = true) (h2 : r.isPair k.x k.y = true) : h.same k := by
  rw [isPair_iff] at h1 h2
  unfold Hit.same
  rcases h1 with ⟨a1, a2⟩ | ⟨a1, a2⟩ <;> rcases h2 with ⟨b1, b2⟩ | ⟨b1, b2⟩
  · exact Or.inl ⟨a1.symm.trans b1, a2.symm.trans b2⟩
  · exact Or.inr ⟨a1.symm.trans b1, a2.symm.trans b2⟩
  · exact Or.inr ⟨a2.symm.trans b2, a1.symm.trans b1⟩
  · exact Or.inl ⟨a2.symm.trans b2, a1.symm.trans b1⟩

theorem collideAll_mid : ∀ (l : List Hit) (s : St K) (P : List Nat), Mid s P → (∀ h ∈ l, HitOk s h) → l.Pairwise (fun h k => ¬ h.same k) →
    (∀ h ∈ l, ∀ r ∈ P, (s.ar r).isPair h.x h.y = false) →
    ∃ s' P', collideAll s l = some s' ∧ Mid s' P' ∧ HitsDone s s' l ∧
      ∀ q, q ∈ P' ↔ (q ∈ P ∨ ∃ h ∈ l, solved s h ∧ live s' q ∧ (s'.ar q).sa = h.x ∧ (s'.ar q).sb = h.y)
  | [], s, P, M, _, _, _ => ⟨s, P, rfl, M, ⟨⟨rfl, fun _ => ⟨rfl, rfl, rfl, rfl, rfl, rfl, rfl⟩, fun _ => Or.inr rfl, fun _ _ => rfl, fun _ => Iff.rfl, fun _ h => h⟩,
      by simp, fun r hr _ => ⟨hr, rfl⟩, fun r _ _ => rfl, [], rfl, by simp, by simp⟩, by simp⟩
  | h :: l, s, P, M, hok, hpw, hP => by
    obtain ⟨s1, P1, e1, M1, D1, hP1⟩ := collide_mid M (hok h (by simp)) (hP h (by simp))
    rw [List.pairwise_cons] at hpw
    have hP' : ∀ k ∈ l, ∀ r ∈ P1, (s1.ar r).isPair k.x k.y = false := by
      intro k hk r hr
      by_cases hp : (s1.ar r).isPair h.x h.y = true
      · by_contra hc
        simp only [Bool.not_eq_false] at hc
        exact hpw.1 k hk (Hit.same_pair hp hc)
      · have h1 := ((hP1 r).1 hr).resolve_right (fun hh => hp (by simp [Ar.isPair, hh.2.2.1, hh.2.2.2]))
        have h2 := D1.other r (Or.inl (M1.inv.arbs.pend r hr).1) (by simpa using hp)
        rw [h2.2]
        exact hP k (by simp [hk]) r h1
    obtain ⟨s2, P2, e2, M2, D2, hP2⟩ := collideAll_mid l s1 P1 M1 (fun k hk => (hok k (by simp [hk])).frame D1.frame) hpw.2 hP'
    obtain ⟨l1, a1, b1, c1⟩ := D1.evs
    obtain ⟨l2, a2, b2, c2⟩ := D2.evs
    have hnot : ∀ k ∈ l, ∀ e : Ev, evPair e = (h.x, h.y) → about e k.x k.y = false := by
      intro k hk e he
      by_contra hc
      simp only [about, he, Prod.mk.injEq, Bool.or_eq_true, decide_eq_true_eq, Bool.not_eq_false] at hc
      exact hpw.1 k hk hc
    have hph : ∀ k ∈ l, Spec.phase k.x k.y s1.evs = Spec.phase k.x k.y s.evs := by
      intro k hk
      rw [a1]
      have : ∀ l0 : List Ev, (∀ e ∈ l0, evPair e = (h.x, h.y)) → Spec.phase k.x k.y (l0 ++ s.evs) = Spec.phase k.x k.y s.evs := by
        intro l0
        induction l0 with
        | nil => intro _; rfl
        | cons e l0 ih =>
          intro he
          rw [List.cons_append, phase_other (hnot k hk e (he e (by simp)))]
          exact ih fun e' he' => he e' (by simp [he'])
      exact this l1 b1
    have hsolved : ∀ k ∈ l, solved s1 k ↔ solved s k := by
      intro k hk
      have e1 : s1.sh = s.sh := by rw [D1.frame.rest]
      unfold solved
      rw [hph k hk, e1, (D1.frame.bd _).1, (D1.frame.bd _).1]
    refine ⟨s2, P2, by simp only [collideAll, e1, e2], M2, ⟨D1.frame.trans D2.frame, ?_, ?_, ?_, ?_⟩, ?_⟩
    · intro k hk
      rcases List.mem_cons.1 hk with rfl | hk
      · obtain ⟨r, h1, h2, h3, h4, h5⟩ := D1.hit
        have hl2 := D2.frame.old r h1
        have hst : s2.stamp = s1.stamp := by rw [D2.frame.rest]
        -- its pair is not hit again
        have hx : ∀ j ∈ l, (s1.ar r).isPair j.x j.y = false := by
          intro j hj
          by_contra hc
          simp only [Bool.not_eq_false] at hc
          exact hpw.1 j hj (Hit.same_pair h2 hc)
        have := D2.keep r h1 hx
        exact ⟨r, hl2, by rw [this]; exact h2, by rw [this, hst]; exact h3, by rw [this]; exact h4, by rw [this]; exact h5⟩
      · exact D2.hit k hk
    · intro r hr hx
      have h1 := D2.other r hr (fun j hj => hx j (by simp [hj]))
      have h2 := D1.other r h1.1 (by rw [← h1.2]; exact hx h (by simp))
      exact ⟨h2.1, h1.2.trans h2.2⟩
    · intro r hr hx
      have h1 := D1.keep r hr (hx h (by simp))
      rw [D2.keep r (D1.frame.old r hr) (fun j hj => by rw [h1]; exact hx j (by simp [hj])), h1]
    · refine ⟨l2 ++ l1, by rw [a2, a1, List.append_assoc], ?_, ?_⟩
      · intro e he
        rcases List.mem_append.1 he with he | he
        · obtain ⟨j, hj, hje⟩ := b2 e he; exact ⟨j, by simp [hj], hje⟩
        · exact ⟨h, by simp, b1 e he⟩
      · intro k hk p hp
        rw [List.filter_append]
        rcases List.mem_cons.1 hk with rfl | hk
        · have h2 : l2.filter (fun e => about e k.x k.y) = [] := by
            rw [List.filter_eq_nil_iff]
            intro e he
            obtain ⟨j, hj, hje⟩ := b2 e he
            simp only [about, hje, Prod.mk.injEq, Bool.or_eq_true, decide_eq_true_eq]
            intro hc
            apply hpw.1 j hj
            rcases hc with ⟨x1, x2⟩ | ⟨x1, x2⟩
            · exact Or.inl ⟨x1.symm, x2.symm⟩
            · exact Or.inr ⟨x2.symm, x1.symm⟩
          have h1 : l1.filter (fun e => about e k.x k.y) = l1 := by
            rw [List.filter_eq_self]
            intro e he
            simp [about, b1 e he]
          rw [h1, h2, c1 p hp]; rfl
        · have h1 : l1.filter (fun e => about e k.x k.y) = [] := by
            rw [List.filter_eq_nil_iff]
            intro e he
            rw [hnot k hk e (b1 e he)]; simp
          rw [h1, List.append_nil]
          exact c2 k hk p (by rw [hph k hk]; exact hp)
    · intro q
      rw [hP2, hP1]
      constructor
      · rintro ((hq | ⟨h1, h2, h3, h4⟩) | ⟨k, hk, h1, h2⟩)
        · exact Or.inl hq
        · right
          refine ⟨h, by simp, h1, D2.frame.old q h2, ?_⟩
          rw [D2.keep q h2 (fun j hj => ?_)]
          · exact ⟨h3, h4⟩
          · by_contra hc
            simp only [Bool.not_eq_false] at hc
            exact hpw.1 j hj (Hit.same_pair (r := s1.ar q) (by simp [Ar.isPair, h3, h4]) hc)
        · exact Or.inr ⟨k, by simp [hk], (hsolved k hk).1 h1, h2⟩
      · rintro (hq | ⟨k, hk, h1, h2, h3, h4⟩)
        · exact Or.inl (Or.inl hq)
        · rcases List.mem_cons.1 hk with rfl | hk
          · left; right
            have hno : ∀ j ∈ l, (s2.ar q).isPair j.x j.y = false := by
              intro j hj
              by_contra hc
              simp only [Bool.not_eq_false] at hc
              exact hpw.1 j hj (Hit.same_pair (r := s2.ar q) (by simp [Ar.isPair, h3, h4]) hc)
            obtain ⟨o1, o2⟩ := D2.other q h2 hno
            rw [o2] at h3 h4
            exact ⟨h1, o1, h3, h4⟩
          · exact Or.inr ⟨k, hk, (hsolved k hk).2 h1, h2, h3, h4⟩

end Sp
end Cm
