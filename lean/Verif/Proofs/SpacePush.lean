import Verif.Proofs.SpaceCollide

/-! # Collisions enter the lists of their bodies -/
set_option linter.unusedSectionVars false
set_option linter.unusedSimpArgs false
set_option linter.unusedVariables false
set_option linter.unusedTactic false
set_option linter.unreachableTactic false

namespace Cm
namespace Sp
open Spec
variable {K : Type} [Zero K]

theorem Ok.nil {s : St K} {P : List Nat} (H : Ok s P) (hl : s.locked = 0) : Inv s s.sleeping [] P := by
  have := H.inv; rw [H.unlocked hl] at this; exact this

theorem updateIdle_same [Add K] (dt : K) (mv : Nat → Bool) : ∀ (l : List Nat) (s : St K), l.Nodup → SameI s (updateIdle s dt mv l) ∧
    ∀ c, ((updateIdle s dt mv l).bd c).idle = if c ∈ l ∧ (s.bd c).kind = .dynamic then (if mv c then 0 else (s.bd c).idle + dt) else (s.bd c).idle
  | [], s, _ => ⟨SameI.refl s, fun c => by simp [updateIdle]⟩
  | b :: l, s, hn => by
    rw [updateIdle]
    have hn' := List.nodup_cons.1 hn
    by_cases hk : (s.bd b).kind = .dynamic
    · rw [if_pos hk]
      have h0 : SameI s (s.setB b fun d => { d with idle := if mv b then 0 else d.idle + dt }) := SameI.setB_idle s b (fun i => if mv b then 0 else i + dt)
      obtain ⟨h1, h2⟩ := updateIdle_same dt mv l (s.setB b fun d => { d with idle := if mv b then 0 else d.idle + dt }) hn'.2
      refine ⟨h0.trans h1, fun c => ?_⟩
      rw [h2 c, (h0.bd c).1]
      by_cases hc : c = b
      · subst hc
        rw [if_neg (fun h => hn'.1 h.1), if_pos ⟨by simp, hk⟩]
        simp [St.setB]
      · simp [St.setB, hc]
    · rw [if_neg hk]
      obtain ⟨h1, h2⟩ := updateIdle_same dt mv l s hn'.2
      refine ⟨h1, fun c => ?_⟩
      rw [h2 c]
      by_cases hc : c = b
      · subst hc; simp [hk]
      · simp [hc]

/-- A dynamic body that touches a kinematic one, or is joined to it, is not idle. -/
def Held (s : St K) (x y a b : Nat) : Prop := Ends x y a b → (s.bd a).kind = .dynamic → (s.bd b).kind = .kinematic → (s.bd a).idle = 0

/-- The invariant while collisions enter the lists of their bodies. -/
structure Push (s : St K) (P : List Nat) : Prop where
  ok : Ok s P
  ev : EvI s P
  unlocked : s.locked = 0
  kin : ∀ b, (s.bd b).kind = .kinematic → (s.bd b).idle = 0
  held : s.threshold ≠ none → ∀ r, thr s r → ∀ a b, Held s (s.ar r).a (s.ar r).b a b
  never : s.threshold = none → ∀ b, (s.bd b).root = none
  stamps : ∀ r ∈ s.arbiters, (s.ar r).stamp = s.stamp

theorem Woken.push {s s' : St K} {P : List Nat} {b : Nat} (M : Push s P) (H : Ok s' P) (w : Woken s s' b) : Push s' P := by
  have q := w.quiet
  refine ⟨H, M.ev.quiet q, by rw [q.locked]; exact M.unlocked, ?_, ?_, ?_, q.stamps M.stamps⟩
  · intro c hc
    rw [(q.bd c).1] at hc
    rcases w.idle c with h | h
    · exact h
    · rw [h]; exact M.kin c hc
  · intro ht r hr a c he ha hc
    rw [q.threshold] at ht
    rw [q.thr] at hr
    rw [(q.bd _).1] at ha hc
    rw [(q.ar r).2.2.1, (q.ar r).2.2.2.1] at he
    rcases w.idle a with h | h
    · exact h
    · rw [h]; exact M.held ht r hr a c he ha hc
  · intro ht c
    rw [q.threshold] at ht
    rw [w.root]; split
    · rfl
    · exact M.never ht c

theorem Woken.awake {s s' : St K} {b c : Nat} (w : Woken s s' b) (h : (s.bd c).root = none) : (s'.bd c).root = none := by
  rw [w.root]; split
  · rfl
  · exact h

theorem Woken.awakeB {s s' : St K} {P : List Nat} {b : Nat} (I : Inv s s.sleeping [] P) (w : Woken s s' b) : (s'.bd b).root = none := by
  rw [w.root]
  by_cases hk : (s.bd b).kind = .dynamic
  · by_cases hr : (s.bd b).root = none
    · rw [if_neg (fun h => h.2.1 hr)]; exact hr
    · rw [if_pos ⟨hk, hr, rfl⟩]
  · rw [if_neg (fun h => hk h.1)]; exact I.static_root hk

/-- Both lists get the collision. -/
def pushBoth (s : St K) (r : Nat) : St K :=
  (s.setB (s.ar r).a fun d => { d with arbs := r :: d.arbs }).setB (s.ar r).b fun d => { d with arbs := r :: d.arbs }

theorem pushBoth_bd (s : St K) (r c : Nat) : ((pushBoth s r).bd c).kind = (s.bd c).kind ∧ ((pushBoth s r).bd c).root = (s.bd c).root ∧
    ((pushBoth s r).bd c).idle = (s.bd c).idle ∧ ((pushBoth s r).bd c).shapes = (s.bd c).shapes ∧ ((pushBoth s r).bd c).space = (s.bd c).space ∧
    ((pushBoth s r).bd c).cons = (s.bd c).cons := by
  simp only [pushBoth, St.setB]
  by_cases h1 : c = (s.ar r).b
  · subst h1
    by_cases h2 : (s.ar r).b = (s.ar r).a <;> simp [h2]
  · by_cases h2 : c = (s.ar r).a
    · subst h2; simp [h1]
    · simp [h1, h2]

theorem pushBoth_thr (s : St K) (r q : Nat) : thr (pushBoth s r) q ↔ (thr s q ∨ q = r) := by
  show q ∈ ((pushBoth s r).bd (s.ar q).a).arbs ↔ _
  simp only [pushBoth, St.setB, thr]
  by_cases h1 : (s.ar q).a = (s.ar r).b
  · by_cases h2 : (s.ar q).a = (s.ar r).a
    · by_cases e : q = r
      · subst e; simp [h2.symm.trans h1]
      · simp [h1, h2, e, h1.symm.trans h2]
    · have e : q ≠ r := by rintro rfl; exact h2 rfl
      have : ¬ ((s.ar r).b = (s.ar r).a) := fun h => h2 (h1.trans h)
      simp [h1, this, e]
  · by_cases h2 : (s.ar q).a = (s.ar r).a
    · by_cases e : q = r
      · subst e; simp [h1]
      · rw [if_neg h1, if_pos h2, h2]; simp [e]
    · have e : q ≠ r := by rintro rfl; exact h2 rfl
      simp [h1, h2, e]

theorem Push.both {s : St K} {P : List Nat} {r : Nat} (M : Push s (r :: P)) (ha : (s.bd (s.ar r).a).root = none) (hb : (s.bd (s.ar r).b).root = none)
    (hh : s.threshold ≠ none → ∀ a b, Held s (s.ar r).a (s.ar r).b a b) : Push (pushBoth s r) P := by
  have hbd := pushBoth_bd s r
  have ht := pushBoth_thr s r
  have hT := M.ok.unlocked M.unlocked
  have hpr := M.ok.inv.arbs.pend r (by simp)
  have hl : ∀ q, live (pushBoth s r) q ↔ live s q := by
    intro q
    show (q ∈ s.cached ∨ thr (pushBoth s r) q) ↔ _
    rw [ht]
    constructor
    · rintro (h | h | rfl)
      · exact Or.inl h
      · exact Or.inr h
      · exact Or.inl hpr.1
    · rintro (h | h)
      · exact Or.inl h
      · exact Or.inr (Or.inl h)
  refine ⟨⟨?_, ?_, M.ok.unlocked⟩, ⟨?_, ?_, ?_, ?_, ?_, M.ev.pool⟩, M.unlocked, ?_, ?_, ?_, M.stamps⟩
  · have I := M.ok.inv
    rw [hT] at I
    show Inv (pushBoth s r) s.sleeping s.roused P
    rw [hT]
    exact I.push (by rw [off_nil, not_not]; exact ha) (by rw [off_nil, not_not]; exact hb)
  · intro b hb
    rw [(hbd b).2.1]; exact M.ok.roots b hb
  · intro q hq; rw [hl] at hq; exact M.ev.live q hq
  · intro x y h; exact M.ev.rest x y (fun q hq => h q ((hl q).2 hq))
  · intro q hq
    rw [ht] at hq
    apply M.ev.used
    rcases hq with (h | h) | h
    · exact Or.inl h
    · right; simp [h]
    · right; simp [h]
  · intro q hq hf
    rw [hl] at hq
    rw [ht]
    rcases M.ev.first q hq hf with h | h
    · rcases List.mem_cons.1 h with rfl | h
      · exact Or.inr (Or.inr rfl)
      · exact Or.inl h
    · exact Or.inr (Or.inl h)
  · intro q hq; rw [hl] at hq; exact M.ev.stamp q hq
  · intro b; rw [(hbd b).1, (hbd b).2.2.1]; exact M.kin b
  · intro hth q hq a b he h1 h2
    rw [(hbd _).1] at h1 h2
    rw [(hbd _).2.2.1]
    rw [ht] at hq
    rcases hq with hq | rfl
    · exact M.held hth q hq a b he h1 h2
    · exact hh hth a b he h1 h2
  · intro h b; rw [(hbd b).2.1]; exact M.never h b

/-- What the loop leaves as it is. -/
structure PushF (s s' : St K) : Prop where
  sh : s'.sh = s.sh
  cn : s'.cn = s.cn
  nb : s'.nb = s.nb
  stat : s'.stat = s.stat
  stamp : s'.stamp = s.stamp
  persistence : s'.persistence = s.persistence
  threshold : s'.threshold = s.threshold
  locked : s'.locked = s.locked
  fresh : s'.fresh = s.fresh
  pool : s'.pool = s.pool
  evs : s'.evs = s.evs
  bd : ∀ b, (s'.bd b).kind = (s.bd b).kind ∧ (s'.bd b).shapes = (s.bd b).shapes ∧ (s'.bd b).cons = (s.bd b).cons ∧ (s'.bd b).space = (s.bd b).space
  ar : ∀ r, (s'.ar r).sa = (s.ar r).sa ∧ (s'.ar r).sb = (s.ar r).sb ∧ (s'.ar r).a = (s.ar r).a ∧ (s'.ar r).b = (s.ar r).b ∧
    (s'.ar r).state = (s.ar r).state ∧ (s'.ar r).count = (s.ar r).count
  live : ∀ r, live s' r ↔ live s r
  roots : ∀ b, (s'.bd b).root = none ∨ (s'.bd b).root = (s.bd b).root
  idle : ∀ b, (s'.bd b).idle = 0 ∨ (s'.bd b).idle = (s.bd b).idle
  calm : ∀ b, (s'.bd b).root ≠ none → (s'.bd b).idle = (s.bd b).idle
  grow : ∀ r, Sp.thr s r → Sp.thr s' r
  restamp : ∀ r, (s'.ar r).stamp = (s.ar r).stamp ∨ (Sp.thr s' r ∧ (s'.ar r).stamp = s.stamp)

theorem PushF.root {s s' : St K} (h : PushF s s') (b : Nat) (hb : (s.bd b).root = none) : (s'.bd b).root = none := by
  rcases h.roots b with e | e
  · exact e
  · rw [e]; exact hb

theorem PushF.refl (s : St K) : PushF s s := by
  constructor
  case roots => exact fun _ => Or.inr rfl
  case idle => exact fun _ => Or.inr rfl
  case calm => exact fun _ _ => rfl
  case restamp => exact fun _ => Or.inl rfl
  case grow => exact fun _ h => h
  all_goals (intros; simp)

theorem PushF.trans {s t u : St K} (h : PushF s t) (k : PushF t u) : PushF s u where
  sh := k.sh.trans h.sh
  cn := k.cn.trans h.cn
  nb := k.nb.trans h.nb
  stat := k.stat.trans h.stat
  stamp := k.stamp.trans h.stamp
  persistence := k.persistence.trans h.persistence
  threshold := k.threshold.trans h.threshold
  locked := k.locked.trans h.locked
  fresh := k.fresh.trans h.fresh
  pool := k.pool.trans h.pool
  evs := k.evs.trans h.evs
  bd b := by
    obtain ⟨a1, a2, a3, a4⟩ := h.bd b
    obtain ⟨b1, b2, b3, b4⟩ := k.bd b
    exact ⟨b1.trans a1, b2.trans a2, b3.trans a3, b4.trans a4⟩
  ar r := by
    obtain ⟨a1, a2, a3, a4, a5, a6⟩ := h.ar r
    obtain ⟨b1, b2, b3, b4, b5, b6⟩ := k.ar r
    exact ⟨b1.trans a1, b2.trans a2, b3.trans a3, b4.trans a4, b5.trans a5, b6.trans a6⟩
  live r := (k.live r).trans (h.live r)
  roots b := by
    rcases k.roots b with e | e
    · exact Or.inl e
    · rw [e]; exact h.roots b
  idle b := by
    rcases k.idle b with e | e
    · exact Or.inl e
    · rw [e]; exact h.idle b
  calm b hb := by
    rw [k.calm b hb]
    refine h.calm b ?_
    rcases k.roots b with e | e
    · exact absurd e hb
    · rw [← e]; exact hb
  restamp r := by
    rcases k.restamp r with e | ⟨e1, e⟩
    · rw [e]; exact (h.restamp r).imp id (fun g => ⟨k.grow r g.1, g.2⟩)
    · right; rw [e, h.stamp]; exact ⟨e1, rfl⟩
  grow r g := k.grow r (h.grow r g)

theorem Woken.pushF {s s' : St K} {b : Nat} (w : Woken s s' b) : PushF s s' where
  sh := w.quiet.sh
  cn := w.quiet.cn
  nb := w.quiet.nb
  stat := w.quiet.stat
  stamp := w.quiet.stamp
  persistence := w.quiet.persistence
  threshold := w.quiet.threshold
  locked := w.quiet.locked
  fresh := w.quiet.fresh
  pool := w.quiet.pool
  evs := w.quiet.evs
  bd b := by obtain ⟨a1, a2, a3, a4, a5⟩ := w.quiet.bd b; exact ⟨a1, a2, a4, a5⟩
  ar := w.quiet.ar
  live := w.quiet.live
  roots b := by
    rw [w.root]; split
    · exact Or.inl rfl
    · exact Or.inr rfl
  idle := w.idle
  calm := w.rest
  grow r := (w.quiet.thr r).2
  restamp r := (w.quiet.restamp r).imp id fun g => ⟨(w.quiet.thr r).2 g.1, g.2⟩

theorem pushBoth_frame {s : St K} {r : Nat} (hc : r ∈ s.cached) : PushF s (pushBoth s r) where
  sh := rfl
  cn := rfl
  nb := rfl
  stat := rfl
  stamp := rfl
  persistence := rfl
  threshold := rfl
  locked := rfl
  fresh := rfl
  pool := rfl
  evs := rfl
  bd b := by obtain ⟨a1, a2, a3, a4, a5, a6⟩ := pushBoth_bd s r b; exact ⟨a1, a4, a6, a5⟩
  ar _ := ⟨rfl, rfl, rfl, rfl, rfl, rfl⟩
  live q := by
    show (q ∈ s.cached ∨ thr (pushBoth s r) q) ↔ (q ∈ s.cached ∨ Sp.thr s q)
    rw [pushBoth_thr]
    constructor
    · rintro (h | h | rfl)
      · exact Or.inl h
      · exact Or.inr h
      · exact Or.inl hc
    · rintro (h | h)
      · exact Or.inl h
      · exact Or.inr (Or.inl h)
  roots b := Or.inr (pushBoth_bd s r b).2.1
  idle b := Or.inr (pushBoth_bd s r b).2.2.1
  calm b _ := (pushBoth_bd s r b).2.2.1
  grow q h := (pushBoth_thr s r q).2 (Or.inl h)
  restamp _ := Or.inl rfl

/-- An optional call of `Activate`. -/
theorem push_activate {s : St K} {P : List Nat} (M : Push s P) (b : Nat) (c : Prop) [Decidable c] :
    ∃ s', (if c then activate s b else some s) = some s' ∧ Push s' P ∧ PushF s s' ∧ (∀ r, thr s' r ↔ thr s r) ∧
      (c → (s'.bd b).root = none ∧ ((s.bd b).kind = .dynamic → (s'.bd b).idle = 0)) := by
  by_cases h : c
  · rw [if_pos h]
    obtain ⟨s', e, H, w⟩ := activate_ok M.ok b
    exact ⟨s', e, w.push M H, w.pushF, w.quiet.thr, fun _ => ⟨w.awakeB (M.ok.nil M.unlocked), w.idleB⟩⟩
  · rw [if_neg h]
    exact ⟨s, rfl, M, PushF.refl s, fun _ => Iff.rfl, fun h' => absurd h' h⟩

theorem pushArbs_push : ∀ (l : List Nat) (s : St K), Push s l → ∃ s', pushArbs s l = some s' ∧ Push s' [] ∧ PushF s s' ∧
    ∀ r, thr s' r ↔ (thr s r ∨ r ∈ l)
  | [], s, M => ⟨s, rfl, M, PushF.refl s, by simp⟩
  | r :: l, s, M => by
    simp only [pushArbs]
    obtain ⟨s1, e1, M1, F1, t1, w1⟩ := push_activate M (s.ar r).a
      (s.threshold.isSome = true ∧ ((s.bd (s.ar r).b).kind = .kinematic ∨ s.asleep (s.ar r).a = true))
    rw [e1]
    simp only
    have ea : (s1.ar r).a = (s.ar r).a := (F1.ar r).2.2.1
    have eb : (s1.ar r).b = (s.ar r).b := (F1.ar r).2.2.2.1
    obtain ⟨s2, e2, M2, F2, t2, w2⟩ := push_activate M1 (s.ar r).b
      (s.threshold.isSome = true ∧ ((s1.bd (s.ar r).a).kind = .kinematic ∨ s1.asleep (s.ar r).b = true))
    rw [e2]
    simp only
    have ea2 : (s2.ar r).a = (s.ar r).a := ((F2.ar r).2.2.1).trans ea
    have eb2 : (s2.ar r).b = (s.ar r).b := ((F2.ar r).2.2.2.1).trans eb
    have A2 := M2.ok.inv.arbs
    have hpr := A2.pend r (by simp)
    have hne : (s.ar r).a ≠ (s.ar r).b := by
      have := A2.ne r (Or.inl hpr.1); rwa [ea2, eb2] at this
    have hna : ∀ c, r ∉ (s2.bd c).arbs := fun c h => hpr.2 ((A2.list c r).1 h).1
    have hp1 : pushArb s2 (s.ar r).a r = some (s2.setB (s.ar r).a fun d => { d with arbs := r :: d.arbs }) := by
      simp only [pushArb]; rw [if_neg (hna _)]
    rw [hp1]
    simp only
    have hp2 : pushArb (s2.setB (s.ar r).a fun d => { d with arbs := r :: d.arbs }) (s.ar r).b r = some (pushBoth s2 r) := by
      simp only [pushArb, pushBoth, ea2, eb2]
      rw [if_neg]
      simp only [St.setB, if_neg (Ne.symm hne)]
      exact hna _
    rw [hp2]
    simp only
    -- both ends are awake
    have hawa : (s2.bd (s.ar r).a).root = none := by
      by_cases hth : s.threshold = none
      · exact M2.never (by rw [F2.threshold, F1.threshold]; exact hth) _
      · apply F2.root
        by_cases hs : (s.bd (s.ar r).a).root = none
        · exact F1.root _ hs
        · refine (w1 ⟨?_, Or.inr ?_⟩).1
          · cases h : s.threshold with
            | none => exact absurd h hth
            | some _ => rfl
          · simp only [St.asleep]
            cases h : (s.bd (s.ar r).a).root with
            | none => exact absurd h hs
            | some _ => rfl
    have hawb : (s2.bd (s.ar r).b).root = none := by
      by_cases hth : s.threshold = none
      · exact M2.never (by rw [F2.threshold, F1.threshold]; exact hth) _
      · by_cases hs : (s1.bd (s.ar r).b).root = none
        · exact F2.root _ hs
        · refine (w2 ⟨?_, Or.inr ?_⟩).1
          · cases h : s.threshold with
            | none => exact absurd h hth
            | some _ => rfl
          · simp only [St.asleep]
            cases h : (s1.bd (s.ar r).b).root with
            | none => exact absurd h hs
            | some _ => rfl
    have hheld : s2.threshold ≠ none → ∀ a b, Held s2 (s2.ar r).a (s2.ar r).b a b := by
      intro hth a b he ha hb
      rw [F2.threshold, F1.threshold] at hth
      have hsome : s.threshold.isSome = true := by
        cases h : s.threshold with
        | none => exact absurd h hth
        | some _ => rfl
      rw [ea2, eb2] at he
      rw [(F2.bd _).1, (F1.bd _).1] at ha hb
      rcases he with ⟨h1, h2⟩ | ⟨h1, h2⟩
      · subst h1; subst h2
        have := (w1 ⟨hsome, Or.inl hb⟩).2 ha
        rcases F2.idle (s.ar r).a with h | h
        · exact h
        · rw [h]; exact this
      · subst h1; subst h2
        refine (w2 ⟨hsome, Or.inl ?_⟩).2 ?_
        · rw [(F1.bd _).1]; exact hb
        · rw [(F1.bd _).1]; exact ha
    have M3 := M2.both (by rw [ea2]; exact hawa) (by rw [eb2]; exact hawb) hheld
    obtain ⟨s4, e4, M4, F4, t4⟩ := pushArbs_push l (pushBoth s2 r) M3
    refine ⟨s4, e4, M4, ((F1.trans F2).trans (pushBoth_frame hpr.1)).trans F4, fun q => ?_⟩
    rw [t4, pushBoth_thr, t2, t1, List.mem_cons, or_assoc]

theorem holdJoints_push : ∀ (l : List Nat) (s : St K), Push s [] → ∃ s', holdJoints s l = some s' ∧ Push s' [] ∧ PushF s s' ∧
    (∀ r, thr s' r ↔ thr s r) ∧ ∀ c ∈ l, ∀ a b, Held s' (s.cn c).a (s.cn c).b a b
  | [], s, M => ⟨s, rfl, M, PushF.refl s, fun _ => Iff.rfl, by simp⟩
  | c :: l, s, M => by
    simp only [holdJoints]
    obtain ⟨s1, e1, M1, F1, t1, w1⟩ := push_activate M (s.cn c).a ((s.bd (s.cn c).b).kind = .kinematic)
    rw [e1]
    simp only
    obtain ⟨s2, e2, M2, F2, t2, w2⟩ := push_activate M1 (s1.cn c).b ((s1.bd (s1.cn c).a).kind = .kinematic)
    rw [e2]
    simp only
    obtain ⟨s3, e3, M3, F3, t3, h3⟩ := holdJoints_push l s2 M2
    refine ⟨s3, e3, M3, (F1.trans F2).trans F3, fun r => by rw [t3, t2, t1], ?_⟩
    intro d hd a b
    have ecn : s2.cn = s.cn := F2.cn.trans F1.cn
    rcases List.mem_cons.1 hd with rfl | hd
    · intro he ha hb
      rw [(F3.bd _).1, (F2.bd _).1, (F1.bd _).1] at ha hb
      have key : (s2.bd a).idle = 0 := by
        rcases he with ⟨h1, h2⟩ | ⟨h1, h2⟩
        · subst h1; subst h2
          rcases F2.idle (s.cn d).a with h | h
          · exact h
          · rw [h]; exact (w1 hb).2 ha
        · subst h1; subst h2
          have e : s1.cn = s.cn := F1.cn
          rw [e] at w2
          exact (w2 (by rw [(F1.bd _).1]; exact hb)).2 (by rw [(F1.bd _).1]; exact ha)
      rcases F3.idle a with h | h
      · exact h
      · rw [h]; exact key
    · rw [← ecn]; exact h3 d hd a b

end Sp
end Cm
