import Verif.Proofs.SpaceFilter

/-! # A whole step -/
set_option linter.unusedSectionVars false
set_option linter.unusedSimpArgs false
set_option linter.unusedVariables false
set_option linter.unusedTactic false
set_option linter.unreachableTactic false

namespace Cm
namespace Sp
open Spec
variable {K : Type} [Zero K] [LT K] [DecidableRel (α := K) (· < ·)]

/-- The bookkeeping is in order, between calls. -/
structure Good (s : St K) : Prop where
  ok : Ok s []
  ev : EvI s []
  unlocked : s.locked = 0
  kin : ∀ b, (s.bd b).kind = .kinematic → (s.bd b).idle = 0
  never : s.threshold = none → ∀ b, (s.bd b).root = none
  per : 1 ≤ s.persistence
  th : ∀ th, s.threshold = some th → (0 : K) < th

theorem Good.inv {s : St K} (G : Good s) : Inv s s.sleeping [] [] := G.ok.nil G.unlocked

theorem Good.woken {s s' : St K} {b : Nat} (G : Good s) (H : Ok s' []) (w : Woken s s' b) : Good s' := by
  have q := w.quiet
  refine ⟨H, G.ev.quiet q, by rw [q.locked]; exact G.unlocked, ?_, ?_, by rw [q.persistence]; exact G.per, by rw [q.threshold]; exact G.th⟩
  · intro c hc
    rw [(q.bd c).1] at hc
    rcases w.idle c with h | h
    · exact h
    · rw [h]; exact G.kin c hc
  · intro ht c
    rw [q.threshold] at ht
    rw [w.root]; split
    · rfl
    · exact G.never ht c

/-- Several bodies are woken. -/
structure WokenAll (s s' : St K) : Prop where
  quiet : Quiet s s'
  root : ∀ c, (s'.bd c).root = none ∨ (s'.bd c).root = (s.bd c).root
  idle : ∀ c, (s'.bd c).idle = 0 ∨ (s'.bd c).idle = (s.bd c).idle
  rest : ∀ c, (s'.bd c).root ≠ none → (s'.bd c).idle = (s.bd c).idle
  fresh : ∀ c, (s.bd c).root ≠ none → (s'.bd c).root = none → (s'.bd c).idle = 0

theorem WokenAll.refl (s : St K) : WokenAll s s := ⟨Quiet.refl s, fun _ => Or.inr rfl, fun _ => Or.inr rfl, fun _ _ => rfl, fun _ h h' => absurd h' h⟩

theorem WokenAll.trans {s s1 s2 : St K} (w1 : WokenAll s s1) (w2 : WokenAll s1 s2) : WokenAll s s2 := by
  refine ⟨w1.quiet.trans w2.quiet, fun c => ?_, fun c => ?_, fun c hc => ?_, fun c hc hc' => ?_⟩
  · rcases w2.root c with e | e
    · exact Or.inl e
    · rw [e]; exact w1.root c
  · rcases w2.idle c with e | e
    · exact Or.inl e
    · rw [e]; exact w1.idle c
  · rw [w2.rest c hc]
    refine w1.rest c ?_
    rcases w2.root c with e | e
    · exact absurd e hc
    · rw [← e]; exact hc
  · by_cases h1 : (s1.bd c).root = none
    · rcases w2.idle c with e | e
      · exact e
      · rw [e]; exact w1.fresh c hc h1
    · exact w2.fresh c h1 hc'

theorem Woken.all {s s' : St K} {b : Nat} (w : Woken s s' b) : WokenAll s s' := by
  refine ⟨w.quiet, fun c => ?_, w.idle, w.rest, fun c hc hc' => ?_⟩
  · rw [w.root]
    split
    · exact Or.inl rfl
    · exact Or.inr rfl
  · rw [w.root] at hc'
    split at hc'
    · rename_i h; exact w.idleG c h.1 h.2.1 h.2.2
    · exact absurd hc' hc

theorem activateAll_ok : ∀ (l : List Nat) (s : St K) (P : List Nat), Ok s P → ∃ s', activateAll s l = some s' ∧ Ok s' P ∧ WokenAll s s'
  | [], s, P, H => ⟨s, rfl, H, WokenAll.refl s⟩
  | b :: l, s, P, H => by
    obtain ⟨s1, e1, H1, w1⟩ := activate_ok H b
    obtain ⟨s2, e2, H2, w2⟩ := activateAll_ok l s1 P H1
    exact ⟨s2, by simp only [activateAll, e1, e2], H2, w1.all.trans w2⟩

theorem wakeRoused_inv : ∀ (T : List Nat) (s : St K) (sl P : List Nat), s.locked = 0 → Inv s sl T P → (∀ b ∈ T, (s.bd b).root = none) →
    ∃ s', wakeRoused s T = some s' ∧ Inv s' sl [] P ∧ Quiet s s' ∧ s'.bd = s.bd ∧ s'.sleeping = s.sleeping ∧ s'.roused = s.roused
  | [], s, sl, P, _, I, _ => ⟨s, rfl, I, Quiet.refl s, rfl, rfl, rfl⟩
  | b :: T, s, sl, P, hl, I, hT => by
    obtain ⟨s1, e1, I1, q1, b1, sl1, ro1⟩ := wakeBody_inv I (b := b) (by simp) (hT b (by simp))
    rw [List.erase_cons_head] at I1
    obtain ⟨s2, e2, I2, q2, b2, sl2, ro2⟩ := wakeRoused_inv T s1 sl P (by rw [q1.locked]; exact hl) I1 (by intro c hc; rw [b1]; exact hT c (by simp [hc]))
    refine ⟨s2, ?_, I2, q1.trans q2, b2.trans b1, sl2.trans sl1, ro2.trans ro1⟩
    simp only [wakeRoused, spaceActivate]
    rw [if_neg (by simp [hl]), e1]
    exact e2

theorem postSolve_eq [Add K] : ∀ (l : List Nat) (s : St K),
    postSolve s l = { s with evs := (l.map fun r => Ev.post (s.ar r).sa (s.ar r).sb).reverse ++ s.evs }
  | [], s => rfl
  | r :: l, s => by
    rw [postSolve, postSolve_eq l]
    simp

theorem EvI.posts {s : St K} {P : List Nat} {evs : List Ev} (E : EvI s P) {sl T : List Nat} (I : Inv s sl T P)
    (h : ∀ e ∈ evs, ∃ r, thr s r ∧ e = .post (s.ar r).sa (s.ar r).sb) : ∀ x y, phase x y (evs ++ s.evs) = phase x y s.evs := by
  induction evs with
  | nil => intro x y; rfl
  | cons e l ih =>
    intro x y
    have ih' := ih (fun e' he => h e' (by simp [he]))
    obtain ⟨r, hr, he⟩ := h e (by simp)
    subst he
    rw [List.cons_append]
    by_cases hp : (s.ar r).isPair x y = true
    · have h0 := E.pair (Or.inr hr) hp
      rw [← ih' x y] at h0
      have hu := E.used r (Or.inl hr)
      have htouch : phaseOf (s.ar r).state = .touching := by
        revert hu; cases (s.ar r).state <;> simp [phaseOf]
      rw [htouch] at h0
      rw [phase_next ((about_pair rfl x y).trans hp) h0, ← ih' x y, h0]; rfl
    · rw [phase_other ((about_pair rfl x y).trans (by simpa using hp)), ih']

/-- The input of a step makes sense. -/
structure StepOk (s : St K) (inp : StepIn K) : Prop where
  hits : ∀ h ∈ inp.hits, HitOk s h
  once : inp.hits.Pairwise fun h k => ¬ h.same k
  full : ∀ b, (s.bd b).space = true → (s.bd b).kind ≠ .static → ∀ x ∈ (s.bd b).shapes, (s.sh x).space = true

/-- The calls made in a step, the latest first. -/
structure StepEvs (s m s' : St K) (inp : StepIn K) (ps ss cs : List Ev) : Prop where
  eq : s'.evs = ps ++ ss ++ cs ++ s.evs
  hit : ∀ h ∈ inp.hits, ∀ p, phase h.x h.y s.evs = some p → cs.filter (fun e => about e h.x h.y) = calls p h
  only : ∀ e ∈ cs, ∃ h ∈ inp.hits, evPair e = (h.x, h.y)
  seps : ∀ e ∈ ss, ∃ x y, e = .separate x y ∧ ∀ h ∈ inp.hits, ¬ ((h.x = x ∧ h.y = y) ∨ (h.x = y ∧ h.y = x))
  posts : ∀ e, e ∈ ps ↔ ∃ r, thr m r ∧ ¬ off m [] (owner m (m.ar r).a (m.ar r).b) ∧ e = .post (m.ar r).sa (m.ar r).sb
  once : ps.Nodup

/-- What is known of a step from `s` to `s'`; `m` is the state after the components are processed. -/
structure StepDone [Add K] (s m s' : St K) (inp : StepIn K) : Prop where
  sh : s'.sh = s.sh
  cn : s'.cn = s.cn
  nb : s'.nb = s.nb
  stat : s'.stat = s.stat
  stamp : s'.stamp = s.stamp + 1
  persistence : s'.persistence = s.persistence
  threshold : s'.threshold = s.threshold
  bd : ∀ b, (s'.bd b).kind = (s.bd b).kind ∧ (s'.bd b).shapes = (s.bd b).shapes ∧ (s'.bd b).cons = (s.bd b).cons ∧ (s'.bd b).space = (s.bd b).space
  evs : ∃ ps ss cs, StepEvs s m s' inp ps ss cs
  linked : ∀ r, Sp.thr m r ↔ ((Sp.thr s r ∧ off s [] (owner s (s.ar r).a (s.ar r).b)) ∨
    ∃ h ∈ inp.hits, solved s h ∧ live m r ∧ (m.ar r).sa = h.x ∧ (m.ar r).sb = h.y)
  hit : ∀ h ∈ inp.hits, phase h.x h.y s'.evs ≠ some .apart
  noHit : ∀ x y, ¬ (frozen s [] (s.sh x).body ∧ frozen s [] (s.sh y).body) → ¬ (frozen m [] (s.sh x).body ∧ frozen m [] (s.sh y).body) →
    (∀ h ∈ inp.hits, ¬ ((h.x = x ∧ h.y = y) ∨ (h.x = y ∧ h.y = x))) → phase x y s'.evs = some .apart
  kinds : ∀ b, (m.bd b).kind = (s.bd b).kind ∧ (m.bd b).space = (s.bd b).space
  slept : ∀ th, s.threshold = some th → Slept s m th
  idle : ∀ th, s.threshold = some th → ∀ b, (m.bd b).idle = 0 ∨ ∃ i, (i = 0 ∨ i = (s.bd b).idle) ∧
    (m.bd b).idle = if b ∈ s.dyn ∧ (s.bd b).kind = .dynamic then (if inp.moving b then 0 else i + inp.dt) else i
  conn : ∀ b c, Conn s' b c ↔ Conn m b c
  roots : ∀ b, (s'.bd b).root = none ∨ (s'.bd b).root = (m.bd b).root
  late : inp.lateWake = [] → s'.bd = m.bd
  ends : ∀ r, Sp.thr s r → off s [] (owner s (s.ar r).a (s.ar r).b) → (m.ar r).a = (s.ar r).a ∧ (m.ar r).b = (s.ar r).b
  joints : m.cn = s.cn
  found : ∀ h ∈ inp.hits, ∃ r, live m r ∧ (m.ar r).sa = h.x ∧ (m.ar r).sb = h.y
  mid : Inv m m.sleeping [] []
  midSh : m.sh = s.sh
  thr : ∀ r, Sp.thr s' r ↔ Sp.thr m r
  calm : ∀ b, (s'.bd b).root ≠ none → (s'.bd b).idle = (m.bd b).idle
  lateIdle : ∀ b, (s'.bd b).idle = 0 ∨ (s'.bd b).idle = (m.bd b).idle
  lateFresh : ∀ b, (m.bd b).root ≠ none → (s'.bd b).root = none → (s'.bd b).idle = 0
  thrEnds : ∀ r, (s'.ar r).a = (m.ar r).a ∧ (s'.ar r).b = (m.ar r).b

theorem step_ok [Add K] {s : St K} (G : Good s) (inp : StepIn K) (W : StepOk s inp) :
    ∃ s' m, step s inp = some s' ∧ Good s' ∧ StepDone s m s' inp := by
  have I0 := G.inv
  have hro0 := G.ok.unlocked G.unlocked
  -- reset
  set u : St K := { s with stamp := s.stamp + 1 } with hu
  have Iu : Inv { u with arbiters := u.arbiters } u.sleeping [] [] := I0.congr (by constructor <;> intros <;> simp [SameB, hu])
  have Eu : EvI { u with arbiters := u.arbiters } [] :=
    G.ev.congr (fun _ => Iff.rfl) (fun _ => Iff.rfl) (fun _ => ⟨rfl, rfl, rfl⟩) rfl (fun _ _ h => Nat.le_succ_of_le h) rfl rfl
  obtain ⟨R1, I1, E1, T1⟩ := resetArbs_inv u.arbiters u Iu Eu
  set s1 := resetArbs u u.arbiters with hs1
  have r1 := R1.rest
  set s2 : St K := { s1 with arbiters := [], locked := s1.locked + 1 } with hs2
  have hsl1 : s1.sleeping = s.sleeping := by rw [r1]
  have hro1 : s1.roused = [] := by rw [r1]; exact hro0
  have hlk1 : s1.locked = 0 := by rw [r1]; exact G.unlocked
  have hbd2 : ∀ b, (s2.bd b).kind = (s.bd b).kind ∧ (s2.bd b).root = (s.bd b).root ∧ (s2.bd b).next = (s.bd b).next ∧
    (s2.bd b).shapes = (s.bd b).shapes ∧ (s2.bd b).cons = (s.bd b).cons ∧ (s2.bd b).space = (s.bd b).space ∧ (s2.bd b).idle = (s.bd b).idle := R1.bd
  have hsh2 : s2.sh = s.sh := by show s1.sh = _; rw [r1]
  have I2 : Inv s2 s2.sleeping [] [] := by
    show Inv s2 s1.sleeping [] []
    rw [hsl1]
    exact I1.congr (by constructor <;> intros <;> simp [SameB, hs2])
  have E2 : EvI s2 [] := E1.congr (fun _ => Iff.rfl) (fun _ => Iff.rfl) (fun _ => ⟨rfl, rfl, rfl⟩) rfl (fun _ _ h => h) rfl rfl
  have hdorm2 : ∀ r, thr s2 r → off s2 [] (owner s2 (s2.ar r).a (s2.ar r).b) := by
    intro r hr
    by_contra hn
    have := (I2.arbs.arb r).2 (Or.inr ⟨hr, hn⟩)
    simp [hs2] at this
  have M2 : Mid s2 [] := ⟨I2, E2, hro1, rfl, hdorm2, by simp [hs2]⟩
  have hfr2 : ∀ b, frozen s2 [] b ↔ frozen s [] b := frozen_congr (fun b => (hbd2 b).1) (fun b => (hbd2 b).2.1)
  -- pairs
  have hok2 : ∀ h ∈ inp.hits, HitOk s2 h := by
    intro h hh
    have k := W.hits h hh
    refine ⟨by rw [hsh2]; exact k.x, by rw [hsh2]; exact k.y, by rw [hsh2]; exact k.ne, by rw [hsh2, hfr2, hfr2]; exact k.active, ?_⟩
    intro b hb; rw [(hbd2 b).2.1]; exact k.wake b hb
  obtain ⟨s3, P3, e3, M3, D3, hP3⟩ := collideAll_mid inp.hits s2 [] M2 hok2 W.once (by simp)
  have F3 := D3.frame
  have r3 := F3.rest
  have hlk3 : s3.locked = 1 := by rw [r3]; show s1.locked + 1 = 1; rw [hlk1]
  have hth3 : s3.threshold = s.threshold := by rw [r3]; show s1.threshold = _; rw [r1]
  have hper3 : s3.persistence = s.persistence := by rw [r3]; show s1.persistence = _; rw [r1]
  have hst3 : s3.stamp = s.stamp + 1 := by rw [r3]; show s1.stamp = _; rw [r1]
  have hsh3 : s3.sh = s.sh := by rw [r3]; exact hsh2
  have hcn3 : s3.cn = s.cn := by rw [r3]; show s1.cn = _; rw [r1]
  have hnb3 : s3.nb = s.nb := by rw [r3]; show s1.nb = _; rw [r1]
  have hstat3 : s3.stat = s.stat := by rw [r3]; show s1.stat = _; rw [r1]
  have hdyn3 : s3.dyn = s.dyn := by rw [r3]; show s1.dyn = _; rw [r1]
  have hev2 : s2.evs = s.evs := by show s1.evs = _; rw [r1]
  have hk3 : ∀ b, (s3.bd b).kind = (s.bd b).kind := fun b => by rw [(F3.bd b).1, (hbd2 b).1]
  have hroot3 : ∀ b, (s3.bd b).root = (s.bd b).root := fun b => by rw [(F3.bd b).2.1, (hbd2 b).2.1]
  have hidle3 : ∀ b, (s3.bd b).idle = 0 ∨ (s3.bd b).idle = (s.bd b).idle := by
    intro b; rcases F3.idle b with h | h
    · exact Or.inl h
    · right; rw [h, (hbd2 b).2.2.2.2.2.2]
  -- unlock
  set s4 : St K := { s3 with locked := 0, roused := [] } with hs4
  have e4 : unlock s3 = some s4 := by
    simp only [unlock, hlk3, M3.roused, wakeRoused]
    simp only [Nat.sub_self, ne_eq, not_true_eq_false, if_false]
    rw [hs4]
  have hq4 : ∀ P, EvI s3 P → EvI s4 P := fun P E => E.congr (fun _ => Iff.rfl) (fun _ => Iff.rfl) (fun _ => ⟨rfl, rfl, rfl⟩) rfl (fun _ _ h => h) rfl rfl
  have I4 : Inv s4 s4.sleeping [] P3 := M3.inv.congr (by constructor <;> intros <;> simp [SameB, hs4])
  have P4 : Push s4 s4.arbiters := by
    have ea : s4.arbiters = P3 := M3.list
    rw [ea]
    refine ⟨⟨I4, by simp [hs4], fun _ => rfl⟩, hq4 _ M3.ev, rfl, ?_, ?_, ?_, M3.stamps⟩
    · intro b hb
      show (s3.bd b).idle = 0
      rcases hidle3 b with h | h
      · exact h
      · rw [h]; exact G.kin b (by rw [← hk3]; exact hb)
    · intro _ r hr a b he ha hb
      exfalso
      have ht : thr s3 r := hr
      obtain ⟨g1, g2⟩ := M3.inv.arbs.group r ht
      obtain ⟨f1, f2⟩ := frozen_both g1 g2 (M3.dormant r ht)
      have hbf : frozen s3 [] b := by
        rcases he with ⟨h1, h2⟩ | ⟨h1, h2⟩
        · rw [← h2]; exact f2
        · rw [← h1]; exact f1
      have hb' : (s3.bd b).kind = .kinematic := hb
      rcases hbf with h | h
      · rw [hb'] at h; cases h
      · exact (off_nil.1 h) (M3.inv.static_root (by rw [hb']; simp))
    · intro ht b
      show (s3.bd b).root = none
      rw [hroot3]
      exact G.never (by rw [← hth3]; exact ht) b
  have hheld : ∀ r, thr s4 r → ∀ a b, Ends (s4.ar r).a (s4.ar r).b a b → ¬ ((s4.bd a).kind = .dynamic ∧ (s4.bd b).kind = .kinematic) := by
    rintro r hr a b he ⟨ha, hb⟩
    have ht : thr s3 r := hr
    obtain ⟨g1, g2⟩ := M3.inv.arbs.group r ht
    obtain ⟨f1, f2⟩ := frozen_both g1 g2 (M3.dormant r ht)
    have hbf : frozen s3 [] b := by
      rcases he with ⟨h1, h2⟩ | ⟨h1, h2⟩
      · rw [← h2]; exact f2
      · rw [← h1]; exact f1
    have hb' : (s3.bd b).kind = .kinematic := hb
    rcases hbf with h | h
    · rw [hb'] at h; cases h
    · exact (off_nil.1 h) (M3.inv.static_root (by rw [hb']; simp))
  -- components
  have hfull4 : ∀ b, (s4.bd b).space = true → (s4.bd b).kind ≠ .static → ∀ x ∈ (s4.bd b).shapes, (s4.sh x).space = true := by
    intro b h1 h2 x hx
    show (s3.sh x).space = true
    rw [hsh3]
    refine W.full b ?_ ?_ x ?_
    · have : (s3.bd b).space = true := h1
      rwa [(F3.bd b).2.2.2.2.2.2, (hbd2 b).2.2.2.2.2.1] at this
    · have : (s3.bd b).kind ≠ .static := h2
      rwa [hk3] at this
    · have : x ∈ (s3.bd b).shapes := hx
      rwa [(F3.bd b).2.2.2.1, (hbd2 b).2.2.2.1] at this
  obtain ⟨s5, e5, P5, F5, t5, S5⟩ := processComponents_ok inp.dt inp.moving P4 (by intro th h; exact G.th th (by rw [← hth3]; exact h)) hfull4 hheld
  -- forget old collisions
  have I5 := P5.ok.nil P5.unlocked
  have hro5 := P5.ok.unlocked P5.unlocked
  set s6 : St K := { s5 with locked := s5.locked + 1 } with hs6
  have I6 : Inv s6 s5.sleeping [] [] := I5.congr (by constructor <;> intros <;> simp [SameB, hs6])
  have E6 : EvI s6 [] := P5.ev.congr (fun _ => Iff.rfl) (fun _ => Iff.rfl) (fun _ => ⟨rfl, rfl, rfl⟩) rfl (fun _ _ h => h) rfl rfl
  obtain ⟨I7, E7, D7⟩ := filterOld_inv s6.cached s6 s5.sleeping I6 E6 P5.stamps (by show 1 ≤ s5.persistence; rw [F5.persistence]; show 1 ≤ s3.persistence; rw [hper3]; exact G.per)
    I6.arbs.cachedN (fun _ h => h)
  set s7 := filterOld s6 s6.cached with hs7
  have f7 := D7.frame
  have r7 := f7.rest
  have hbd7 : s7.bd = s5.bd := by rw [r7]
  -- PostSolve
  have e8 := postSolve_eq s7.arbiters s7
  set evs8 := (s7.arbiters.map fun r => Ev.post (s7.ar r).sa (s7.ar r).sb).reverse with hevs8
  have h8 : ∀ e, e ∈ evs8 ↔ ∃ r ∈ s7.arbiters, e = .post (s7.ar r).sa (s7.ar r).sb := by
    intro e; simp [hevs8, eq_comm]
  set s8 := postSolve s7 s7.arbiters with hs8
  have hthr7 : ∀ r ∈ s7.arbiters, thr s7 r := by
    intro r hr
    rcases (I7.arbs.arb r).1 hr with h | h
    · simp at h
    · exact h.1
  have hph8 : ∀ x y, phase x y s8.evs = phase x y s7.evs := by
    intro x y
    rw [e8]
    exact E7.posts I7 (fun e he => by obtain ⟨r, hr, h⟩ := (h8 e).1 he; exact ⟨r, hthr7 r hr, h⟩) x y
  have I8 : Inv s8 s5.sleeping [] [] := by
    rw [e8]; exact I7.congr (by constructor <;> intros <;> simp [SameB])
  have E8 : EvI s8 [] := by
    have hl : ∀ r, live s8 r ↔ live s7 r := by intro r; rw [e8]; exact Iff.rfl
    have ht : ∀ r, thr s8 r ↔ thr s7 r := by intro r; rw [e8]; exact Iff.rfl
    have har : s8.ar = s7.ar := by rw [e8]
    refine ⟨?_, ?_, ?_, ?_, ?_, ?_⟩
    · intro r hr; rw [hl] at hr; rw [har, hph8]; exact E7.live r hr
    · intro x y h; rw [hph8]; apply E7.rest; intro r hr; have := h r ((hl r).2 hr); rwa [har] at this
    · intro r hr; rw [ht] at hr; rw [har]; exact E7.used r hr
    · intro r hr; rw [hl] at hr; rw [har, ht]; exact E7.first r hr
    · intro r hr; rw [hl] at hr; rw [har, e8]; exact E7.stamp r hr
    · rw [e8]; exact E7.pool
  have hlk8 : s8.locked = 1 := by rw [e8, r7]; show s5.locked + 1 = 1; rw [P5.unlocked]
  have hro8 : s8.roused = [] := by rw [e8, r7]; exact hro5
  have hsl8 : s8.sleeping = s5.sleeping := by rw [e8, r7]
  have hbd8 : s8.bd = s5.bd := by rw [e8, r7]
  have H8 : Ok s8 [] := ⟨by rw [hsl8, hro8]; exact I8, by rw [hro8]; simp, fun _ => hro8⟩
  -- late callbacks
  obtain ⟨s9, e9, H9, w9⟩ := activateAll_ok inp.lateWake s8 [] H8
  have q9 := w9.quiet
  -- unlock
  set s10 : St K := { s9 with locked := 0 } with hs10
  have I10 : Inv s10 s9.sleeping s9.roused [] := H9.inv.congr (by constructor <;> intros <;> simp [SameB, hs10])
  obtain ⟨s11, e11, I11, q11, b11, sl11, ro11⟩ := wakeRoused_inv s9.roused s10 s9.sleeping [] rfl I10 H9.roots
  set s12 : St K := { s11 with roused := [] } with hs12
  have hlk9 : s9.locked = 1 := by rw [q9.locked]; exact hlk8
  have e12 : unlock s9 = some s12 := by
    simp only [unlock, hlk9, Nat.sub_self, ne_eq, not_true_eq_false, if_false]
    show (match wakeRoused s10 s9.roused with
      | none => none
      | some s2 => some { s2 with roused := [] }) = some s12
    rw [e11]
  have hl10 : s10.locked = 0 := rfl
  have I12 : Inv s12 s12.sleeping [] [] := by
    show Inv s12 s11.sleeping [] []
    rw [sl11]
    exact I11.congr (by constructor <;> intros <;> simp [SameB, hs12])
  have E12 : EvI s12 [] := by
    have E9 := E8.quiet q9
    have E10 : EvI s10 [] := E9.congr (fun _ => Iff.rfl) (fun _ => Iff.rfl) (fun _ => ⟨rfl, rfl, rfl⟩) rfl (fun _ _ h => h) rfl rfl
    exact (E10.quiet q11).congr (fun _ => Iff.rfl) (fun _ => Iff.rfl) (fun _ => ⟨rfl, rfl, rfl⟩) rfl (fun _ _ h => h) rfl rfl
  have hbd12 : s12.bd = s9.bd := b11
  have hk12 : ∀ b, (s12.bd b).kind = (s.bd b).kind ∧ (s12.bd b).shapes = (s.bd b).shapes ∧ (s12.bd b).cons = (s.bd b).cons ∧ (s12.bd b).space = (s.bd b).space := by
    intro b
    rw [hbd12]
    have h9 := q9.bd b
    rw [hbd8] at h9
    have h5 := F5.bd b
    have h3 := F3.bd b
    have h2 := hbd2 b
    refine ⟨h9.1.trans (h5.1.trans (hk3 b)), h9.2.1.trans (h5.2.1.trans (h3.2.2.2.1.trans h2.2.2.2.1)), h9.2.2.2.1.trans (h5.2.2.1.trans (h3.2.2.2.2.2.1.trans h2.2.2.2.2.1)),
      h9.2.2.2.2.trans (h5.2.2.2.trans (h3.2.2.2.2.2.2.trans h2.2.2.2.2.2.1))⟩
  have hth12 : s12.threshold = s.threshold := by
    show s11.threshold = _
    rw [q11.threshold]; show s9.threshold = _
    rw [q9.threshold, e8, r7]; show s5.threshold = _
    rw [F5.threshold]; exact hth3
  have hper12 : s12.persistence = s.persistence := by
    show s11.persistence = _
    rw [q11.persistence]; show s9.persistence = _
    rw [q9.persistence, e8, r7]; show s5.persistence = _
    rw [F5.persistence]; exact hper3
  have hroot12 : ∀ b, (s12.bd b).root = none ∨ (s12.bd b).root = (s5.bd b).root := by
    intro b; rw [hbd12, ← hbd8]; exact w9.root b
  have hev12 : s12.evs = s8.evs := by
    show s11.evs = _
    rw [q11.evs]; show s9.evs = _
    rw [q9.evs]
  have hthr12 : ∀ r, thr s12 r ↔ thr s5 r := by
    intro r
    have h1 : thr s12 r ↔ thr s9 r := q11.thr r
    rw [h1, q9.thr, e8]
    show r ∈ (s7.bd (s7.ar r).a).arbs ↔ _
    rw [hbd7, (f7.ar r).2.2.1]; exact Iff.rfl
  have hcn12 : s12.cn = s5.cn := by
    show s11.cn = _
    rw [q11.cn]; show s9.cn = _
    rw [q9.cn, e8, r7]
  have har12 : ∀ r, (s12.ar r).a = (s5.ar r).a ∧ (s12.ar r).b = (s5.ar r).b := by
    intro r
    have h1 := q11.ar r
    have h2 := q9.ar r
    have h3 : s8.ar = s7.ar := by rw [e8]
    have h4 := f7.ar r
    rw [h3] at h2
    exact ⟨h1.2.2.1.trans (h2.2.2.1.trans h4.2.2.1), h1.2.2.2.1.trans (h2.2.2.2.1.trans h4.2.2.2.1)⟩
  have hkm : ∀ b, (s12.bd b).kind = (s5.bd b).kind := by
    intro b; rw [hbd12, ← hbd8]; exact (q9.bd b).1
  have hconn : ∀ b c, Conn s12 b c ↔ Conn s5 b c := by
    have : Link s12 = Link s5 := by
      funext x y
      apply propext
      simp only [Link, Adj, hkm, hthr12, hcn12, (har12 _).1, (har12 _).2]
    intro b c; simp only [Conn, this]
  refine ⟨s12, s5, ?_, ⟨⟨I12, by simp [hs12], fun _ => rfl⟩, E12, ?_, ?_, ?_, by rw [hper12]; exact G.per, by rw [hth12]; exact G.th⟩, ?_⟩
  · unfold step
    simp only
    show (match collideAll s2 inp.hits with
      | none => none
      | some s3 => match unlock s3 with
        | none => none
        | some s4 => match processComponents s4 inp.dt inp.moving with
          | none => none
          | some s5 =>
            match activateAll (postSolve (filterOld { s5 with locked := s5.locked + 1 } s5.cached) (filterOld { s5 with locked := s5.locked + 1 } s5.cached).arbiters) inp.lateWake with
            | none => none
            | some s9 => unlock s9) = some s12
    rw [e3]; simp only
    rw [e4]; simp only
    rw [e5]; simp only
    show (match activateAll s8 inp.lateWake with
            | none => none
            | some s9 => unlock s9) = some s12
    rw [e9]; simp only
    exact e12
  · show s11.locked = 0
    rw [q11.locked]
  · intro b hb
    rw [hkm] at hb
    rw [hbd12]
    rcases w9.idle b with h | h
    · exact h
    · rw [h, hbd8]; exact P5.kin b hb
  · intro h b
    rcases hroot12 b with e | e
    · exact e
    · rw [e]; exact P5.never (by rw [F5.threshold]; show s3.threshold = none; rw [hth3, ← hth12]; exact h) b
  · refine ⟨?_, ?_, ?_, ?_, ?_, hper12, hth12, hk12, ?_, ?_, ?_, ?_, ?_, ?_, ?_, hconn, hroot12, ?_, ?_, F5.cn.trans hcn3, ?_, I5, F5.sh.trans hsh3, hthr12, ?_, ?_, ?_, har12⟩
    · show s11.sh = _
      rw [q11.sh]; show s9.sh = _
      rw [q9.sh, e8, r7]; show s5.sh = _
      rw [F5.sh]; exact hsh3
    · rw [hcn12, F5.cn]; exact hcn3
    · show s11.nb = _
      rw [q11.nb]; show s9.nb = _
      rw [q9.nb, e8, r7]; show s5.nb = _
      rw [F5.nb]; exact hnb3
    · show s11.stat = _
      rw [q11.stat]; show s9.stat = _
      rw [q9.stat, e8, r7]; show s5.stat = _
      rw [F5.stat]; exact hstat3
    · show s11.stamp = _
      rw [q11.stamp]; show s9.stamp = _
      rw [q9.stamp, e8, r7]; show s5.stamp = _
      rw [F5.stamp]; exact hst3
    · obtain ⟨l7, h7, h7s⟩ := f7.evs
      obtain ⟨l3, h3, h3o, h3h⟩ := D3.evs
      have ha7 : s7.arbiters = s5.arbiters := by rw [r7]
      refine ⟨evs8, l7, l3, ?_, ?_, h3o, ?_, ?_, ?_⟩
      · rw [hev12, e8]
        show evs8 ++ s7.evs = _
        rw [h7]
        show evs8 ++ (l7 ++ s5.evs) = _
        rw [F5.evs]
        show evs8 ++ (l7 ++ s3.evs) = _
        rw [h3, hev2]; simp
      · intro h hh p hp
        exact h3h h hh p (by rw [hev2]; exact hp)
      · intro e he
        obtain ⟨r, hl, hnr, hst, hca, ee⟩ := h7s e he
        refine ⟨_, _, ee, ?_⟩
        intro h hh hc
        obtain ⟨q, hlq, hpq, hsq, _⟩ := D3.hit h hh
        have hl6 : live s5 r := hl
        have hl3 : live s3 r := (F5.live r).1 hl6
        have hp3 : (s3.ar r).isPair h.x h.y = true := by
          have h5 : (s5.ar r).sa = (s3.ar r).sa ∧ (s5.ar r).sb = (s3.ar r).sb := ⟨(F5.ar r).1, (F5.ar r).2.1⟩
          have hc' : (h.x = (s5.ar r).sa ∧ h.y = (s5.ar r).sb) ∨ (h.x = (s5.ar r).sb ∧ h.y = (s5.ar r).sa) := hc
          rw [h5.1, h5.2] at hc'
          rw [isPair_iff]
          rcases hc' with ⟨x1, x2⟩ | ⟨x1, x2⟩
          · exact Or.inl ⟨x1.symm, x2.symm⟩
          · exact Or.inr ⟨x2.symm, x1.symm⟩
        have hqr : q = r := by
          refine M3.inv.arbs.uniq q r hlq hl3 ?_
          rw [isPair_iff] at hpq hp3 ⊢
          rcases hpq with ⟨x1, x2⟩ | ⟨x1, x2⟩ <;> rcases hp3 with ⟨y1, y2⟩ | ⟨y1, y2⟩ <;> simp [x1, x2, y1, y2]
        subst hqr
        have hst' : (s5.ar q).stamp < s5.stamp := hst
        rw [F5.stamp] at hst'
        rcases F5.restamp q with e | e
        · rw [e] at hst'
          have : (s3.ar q).stamp < s3.stamp := hst'
          omega
        · rw [e.2] at hst'; exact absurd hst' (lt_irrefl _)
      · intro e
        rw [h8, ha7]
        constructor
        · rintro ⟨r, hr, ee⟩
          rcases (I5.arbs.arb r).1 hr with h | h
          · simp at h
          · exact ⟨r, h.1, h.2, by rw [ee, (f7.ar r).1, (f7.ar r).2.1]⟩
        · rintro ⟨r, h1, h2, ee⟩
          exact ⟨r, (I5.arbs.arb r).2 (Or.inr ⟨h1, h2⟩), by rw [ee, (f7.ar r).1, (f7.ar r).2.1]⟩
      · rw [hevs8, List.nodup_reverse]
        refine List.Nodup.map_on ?_ I7.arbs.arbN
        intro q hq r hr he
        rw [Ev.post.injEq] at he
        refine I7.arbs.uniq q r (Or.inr (hthr7 q hq)) (Or.inr (hthr7 r hr)) ?_
        simp [Ar.isPair, he.1, he.2]
    · intro r
      rw [t5]
      have h1 : thr s4 r ↔ thr s r ∧ off s [] (owner s (s.ar r).a (s.ar r).b) := by
        have : thr s4 r ↔ thr s2 r := F3.thr r
        have h2 : thr s2 r ↔ thr s r ∧ r ∉ s.arbiters := T1 r
        rw [this, h2, I0.arbs.arb r]
        simp
        tauto
      have h2 : r ∈ s4.arbiters ↔ ∃ h ∈ inp.hits, solved s h ∧ live s5 r ∧ (s5.ar r).sa = h.x ∧ (s5.ar r).sb = h.y := by
        have ea : s4.arbiters = P3 := M3.list
        rw [ea, hP3]
        have hso : ∀ h, solved s2 h ↔ solved s h := by
          intro h; unfold solved; rw [hev2, hsh2, (hbd2 _).1, (hbd2 _).1]
        have hlv : live s5 r ↔ live s3 r := F5.live r
        have h5 : (s5.ar r).sa = (s3.ar r).sa ∧ (s5.ar r).sb = (s3.ar r).sb := ⟨(F5.ar r).1, (F5.ar r).2.1⟩
        simp only [List.not_mem_nil, false_or, hso, hlv, h5.1, h5.2]
      rw [h1, h2]
    · intro h hh
      rw [hev12, hph8]
      obtain ⟨r, hl, hp, hs, hc, _⟩ := D3.hit h hh
      have hl5 : live s6 r := (F5.live r).2 hl
      have ha5 := F5.ar r
      have hst5 : (s6.ar r).stamp = s6.stamp := by
        show (s5.ar r).stamp = s5.stamp
        rw [F5.stamp]
        rcases F5.restamp r with e | e
        · rw [e]; exact hs
        · rw [e.2]
      have hk7 := D7.keep r hl5 (Or.inr (Or.inr hst5))
      have hp7 : (s7.ar r).isPair h.x h.y = true := by
        rw [hk7.2]
        show (s5.ar r).isPair h.x h.y = true
        have : (s5.ar r).isPair h.x h.y = (s3.ar r).isPair h.x h.y := by simp only [Ar.isPair, ha5.1, ha5.2.1]; rfl
        rw [this]; exact hp
      rw [E7.pair hk7.1 hp7, hk7.2]
      have : (s6.ar r).state ≠ .cached := by show (s5.ar r).state ≠ .cached; rw [ha5.2.2.2.2.1]; exact hc
      revert this
      cases (s6.ar r).state <;> simp [phaseOf]
    · intro x y hact hact5 hno
      rw [hev12, hph8]
      by_cases hex : ∃ r, live s7 r ∧ (s7.ar r).isPair x y = true
      · obtain ⟨r, hl7, hp7⟩ := hex
        rw [E7.pair hl7 hp7]
        have hl5 : live s5 r := f7.live r hl7
        have hl3 : live s3 r := (F5.live r).1 hl5
        have hp5 : (s5.ar r).isPair x y = true := by
          have : (s7.ar r).isPair x y = (s5.ar r).isPair x y := by simp only [Ar.isPair, (f7.ar r).1, (f7.ar r).2.1]; rfl
          rw [← this]; exact hp7
        have hp3 : (s3.ar r).isPair x y = true := by
          have : (s5.ar r).isPair x y = (s3.ar r).isPair x y := by simp only [Ar.isPair, (F5.ar r).1, (F5.ar r).2.1]; rfl
          rw [← this]; exact hp5
        have hnoh : ∀ h ∈ inp.hits, (s3.ar r).isPair h.x h.y = false := by
          intro h hh
          by_contra hc
          simp only [Bool.not_eq_false] at hc
          apply hno h hh
          have := Hit.same_pair (h := h) (k := ⟨x, y, 0, true, true, true, []⟩) hc hp3
          exact this
        obtain ⟨hl2, ha2⟩ := D3.other r hl3 hnoh
        -- it is not in the lists of its bodies
        have hthr2 : ¬ thr s2 r := by
          intro ht
          obtain ⟨g1, g2⟩ := I2.arbs.group r ht
          obtain ⟨f1, f2⟩ := frozen_both g1 g2 (hdorm2 r ht)
          obtain ⟨a1, a2, _⟩ := I2.arbs.shp r hl2
          rw [a1, hsh2, hfr2] at f1
          rw [a2, hsh2, hfr2] at f2
          apply hact
          rw [ha2] at hp3
          rcases isPair_iff.1 hp3 with ⟨h1, h2⟩ | ⟨h1, h2⟩
          · rw [h1] at f1; rw [h2] at f2; exact ⟨f1, f2⟩
          · rw [h1] at f1; rw [h2] at f2; exact ⟨f2, f1⟩
        have hold2 : (s2.ar r).stamp ≤ s.stamp := by
          have h1 : live s r := by
            rcases hl2 with h | h
            · have : r ∈ s1.cached := h
              rw [r1] at this; exact Or.inl this
            · exact absurd h hthr2
          have h2 := (R1.ar r).2.2.2.2.1
          show (s1.ar r).stamp ≤ _
          rw [h2]; exact G.ev.stamp r h1
        have hthr5 : ¬ thr s5 r := by
          rw [t5]
          rintro (h | h)
          · exact hthr2 ((F3.thr r).1 h)
          · have : r ∈ s3.arbiters := h
            have hs := M3.stamps r this
            rw [ha2, hst3] at hs
            have := hold2
            omega
        have hc5 : r ∈ s6.cached := by
          rcases hl5 with h | h
          · exact h
          · exact absurd h hthr5
        have hnr : ¬ resting s6 r := by
          rintro ⟨f1, f2⟩
          obtain ⟨a1, a2, _⟩ := I5.arbs.shp r hl5
          have hsh5 : s5.sh = s.sh := by rw [F5.sh]; exact hsh3
          have f1' : frozen s5 [] (s5.ar r).a := f1
          have f2' : frozen s5 [] (s5.ar r).b := f2
          rw [a1, hsh5] at f1'
          rw [a2, hsh5] at f2'
          apply hact5
          rcases isPair_iff.1 hp5 with ⟨h1, h2⟩ | ⟨h1, h2⟩
          · rw [h1] at f1'; rw [h2] at f2'; exact ⟨f1', f2'⟩
          · rw [h1] at f1'; rw [h2] at f2'; exact ⟨f2', f1'⟩
        have hlt : (s6.ar r).stamp < s6.stamp := by
          show (s5.ar r).stamp < s5.stamp
          rw [F5.stamp]
          show _ < s3.stamp
          rw [hst3]
          rcases F5.restamp r with e | e
          · rw [e]
            show (s3.ar r).stamp < _
            rw [ha2]
            omega
          · exact absurd e.1 hthr5
        rw [D7.old r hc5 hnr hlt hl7]; rfl
      · apply E7.rest
        intro r hr
        by_contra hc
        simp only [Bool.not_eq_false] at hc
        exact hex ⟨r, hr, hc⟩
    · intro b
      exact ⟨(F5.bd b).1.trans (hk3 b), (F5.bd b).2.2.2.trans ((F3.bd b).2.2.2.2.2.2.trans (hbd2 b).2.2.2.2.2.1)⟩
    · intro th h
      have h' := (S5 th (by show s3.threshold = _; rw [hth3]; exact h)).1
      refine ⟨h'.awake, fun b hb => ?_⟩
      have := h'.asleep b hb
      have e : (s4.bd b).root = (s.bd b).root := hroot3 b
      rw [e] at this
      refine this.imp (fun ⟨h1, h2⟩ => ⟨h1, h2.trans ?_⟩) id
      show (s3.bd b).idle = _
      rw [F3.calm b (by rw [hroot3, ← h1]; exact hb), (hbd2 b).2.2.2.2.2.2]
    · intro th h b
      rcases (S5 th (by show s3.threshold = _; rw [hth3]; exact h)).2 b with e | e
      · exact Or.inl e
      · right
        refine ⟨(s3.bd b).idle, hidle3 b, ?_⟩
        rw [e]
        show (if b ∈ s3.dyn ∧ (s3.bd b).kind = .dynamic then _ else _) = _
        rw [hdyn3, hk3]
    · intro h
      rw [h] at e9
      simp only [activateAll] at e9
      obtain rfl : s8 = s9 := by simpa using e9
      rw [hbd12, hbd8]
    · intro r hr hoff
      have h2 : thr s2 r := (T1 r).2 ⟨hr, fun hc => by
        rcases (I0.arbs.arb r).1 hc with h | h
        · simp at h
        · exact h.2 hoff⟩
      have hl2 : live s2 r := Or.inr h2
      have k3 : s3.ar r = s2.ar r := by
        apply D3.keep r hl2
        intro h hh
        by_contra hc
        simp only [Bool.not_eq_false] at hc
        obtain ⟨g1, g2⟩ := I2.arbs.group r h2
        obtain ⟨f1, f2⟩ := frozen_both g1 g2 (hdorm2 r h2)
        obtain ⟨a1, a2, _⟩ := I2.arbs.shp r hl2
        apply (hok2 h hh).active
        rcases isPair_iff.1 hc with ⟨x1, x2⟩ | ⟨x1, x2⟩
        · rw [← x1, ← x2, ← a1, ← a2]; exact ⟨f1, f2⟩
        · rw [← x1, ← x2, ← a1, ← a2]; exact ⟨f2, f1⟩
      have h5 := F5.ar r
      have e4 : s4.ar r = s3.ar r := rfl
      have h1 := R1.ar r
      exact ⟨h5.2.2.1.trans ((by rw [e4, k3] : (s4.ar r).a = (s2.ar r).a).trans h1.2.2.1), h5.2.2.2.1.trans ((by rw [e4, k3] : (s4.ar r).b = (s2.ar r).b).trans h1.2.2.2.1)⟩
    · intro h hh
      obtain ⟨r, hl, _, _, _, h5, h6⟩ := D3.hit h hh
      exact ⟨r, (F5.live r).2 hl, (F5.ar r).1.trans h5, (F5.ar r).2.1.trans h6⟩
    · intro b hb
      rw [hbd12] at hb ⊢
      rw [w9.rest b hb, hbd8]
    · intro b; rw [hbd12]
      have := w9.idle b
      rwa [hbd8] at this
    · intro b hb hb'
      rw [hbd12] at hb' ⊢
      exact w9.fresh b (by rw [hbd8]; exact hb) hb'

end Sp
end Cm
