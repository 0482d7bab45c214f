import Verif.Proofs.SpacePush

/-! # Processing components -/
set_option linter.unusedSectionVars false
set_option linter.unusedSimpArgs false
set_option linter.unusedVariables false
set_option linter.unusedTactic false
set_option linter.unreachableTactic false

namespace Cm
namespace Sp
open Spec
variable {K : Type} [Zero K]

/-- What processing components leaves as it is. -/
structure Frame (s s' : St K) : Prop where
  sh : s'.sh = s.sh
  cn : s'.cn = s.cn
  nb : s'.nb = s.nb
  stat : s'.stat = s.stat
  stamp : s'.stamp = s.stamp
  persistence : s'.persistence = s.persistence
  threshold : s'.threshold = s.threshold
  locked : s'.locked = s.locked
  fresh : s'.fresh = s.fresh
  pool : s'.pool = s.pool
  evs : s'.evs = s.evs
  bd : ∀ b, (s'.bd b).kind = (s.bd b).kind ∧ (s'.bd b).shapes = (s.bd b).shapes ∧ (s'.bd b).cons = (s.bd b).cons ∧ (s'.bd b).space = (s.bd b).space
  ar : ∀ r, (s'.ar r).sa = (s.ar r).sa ∧ (s'.ar r).sb = (s.ar r).sb ∧ (s'.ar r).a = (s.ar r).a ∧ (s'.ar r).b = (s.ar r).b ∧
    (s'.ar r).state = (s.ar r).state ∧ (s'.ar r).count = (s.ar r).count
  live : ∀ r, live s' r ↔ live s r
  grow : ∀ r, Sp.thr s r → Sp.thr s' r
  restamp : ∀ r, (s'.ar r).stamp = (s.ar r).stamp ∨ (Sp.thr s' r ∧ (s'.ar r).stamp = s.stamp)

theorem Frame.trans {s t u : St K} (h : Frame s t) (k : Frame t u) : Frame s u where
  sh := k.sh.trans h.sh
  cn := k.cn.trans h.cn
  nb := k.nb.trans h.nb
  stat := k.stat.trans h.stat
  stamp := k.stamp.trans h.stamp
  persistence := k.persistence.trans h.persistence
  threshold := k.threshold.trans h.threshold
  locked := k.locked.trans h.locked
  fresh := k.fresh.trans h.fresh
  pool := k.pool.trans h.pool
  evs := k.evs.trans h.evs
  bd b := by
    obtain ⟨a1, a2, a3, a4⟩ := h.bd b
    obtain ⟨b1, b2, b3, b4⟩ := k.bd b
    exact ⟨b1.trans a1, b2.trans a2, b3.trans a3, b4.trans a4⟩
  ar r := by
    obtain ⟨a1, a2, a3, a4, a5, a6⟩ := h.ar r
    obtain ⟨b1, b2, b3, b4, b5, b6⟩ := k.ar r
    exact ⟨b1.trans a1, b2.trans a2, b3.trans a3, b4.trans a4, b5.trans a5, b6.trans a6⟩
  live r := (k.live r).trans (h.live r)
  restamp r := by
    rcases k.restamp r with e | ⟨e1, e⟩
    · rw [e]; exact (h.restamp r).imp id (fun g => ⟨k.grow r g.1, g.2⟩)
    · right; rw [e, h.stamp]; exact ⟨e1, rfl⟩
  grow r g := k.grow r (h.grow r g)

theorem PushF.toFrame {s s' : St K} (h : PushF s s') : Frame s s' :=
  ⟨h.sh, h.cn, h.nb, h.stat, h.stamp, h.persistence, h.threshold, h.locked, h.fresh, h.pool, h.evs, h.bd, h.ar, h.live, h.grow, h.restamp⟩

theorem Quiet.toFrame {s s' : St K} (h : Quiet s s') : Frame s s' :=
  ⟨h.sh, h.cn, h.nb, h.stat, h.stamp, h.persistence, h.threshold, h.locked, h.fresh, h.pool, h.evs,
   fun b => by obtain ⟨a1, a2, a3, a4, a5⟩ := h.bd b; exact ⟨a1, a2, a4, a5⟩, h.ar, h.live, fun r => (h.thr r).2, fun r => (h.restamp r).imp id fun g => ⟨(h.thr r).2 g.1, g.2⟩⟩

variable [LT K] [DecidableRel (α := K) (· < ·)] [Add K]

/-- What a step does to the groups. -/
structure Slept (s s' : St K) (th : K) : Prop where
  awake : ∀ b, (s'.bd b).kind = .dynamic → (s'.bd b).space = true → (s'.bd b).root = none → Busy s' th b
  asleep : ∀ b, (s'.bd b).root ≠ none → ((s'.bd b).root = (s.bd b).root ∧ (s'.bd b).idle = (s.bd b).idle) ∨
    (¬ Busy s' th b ∧ ∀ c, (s'.bd c).root = (s'.bd b).root ↔ Conn s' b c)

theorem processComponents_ok {s : St K} (dt : K) (mv : Nat → Bool) (M : Push s s.arbiters)
    (hth : ∀ th, s.threshold = some th → (0 : K) < th)
    (hfull : ∀ b, (s.bd b).space = true → (s.bd b).kind ≠ .static → ∀ x ∈ (s.bd b).shapes, (s.sh x).space = true)
    (hheld : ∀ r, thr s r → ∀ a b, Ends (s.ar r).a (s.ar r).b a b → ¬ ((s.bd a).kind = .dynamic ∧ (s.bd b).kind = .kinematic)) :
    ∃ s', processComponents s dt mv = some s' ∧ Push s' [] ∧ Frame s s' ∧ (∀ r, thr s' r ↔ (thr s r ∨ r ∈ s.arbiters)) ∧
      (∀ th, s.threshold = some th → Slept s s' th ∧
        ∀ b, (s'.bd b).idle = 0 ∨ (s'.bd b).idle = if b ∈ s.dyn ∧ (s.bd b).kind = .dynamic then (if mv b then 0 else (s.bd b).idle + dt) else (s.bd b).idle) := by
  unfold processComponents
  cases ht : s.threshold with
  | none =>
    simp only [Option.isSome_none, Bool.false_eq_true, if_false]
    obtain ⟨s2, e2, M2, F2, t2⟩ := pushArbs_push s.arbiters s M
    rw [e2]
    simp only [F2.threshold, ht]
    exact ⟨s2, rfl, M2, F2.toFrame, t2, by intro th h; cases h⟩
  | some th =>
    simp only [Option.isSome_some, if_true]
    obtain ⟨q1, i1⟩ := updateIdle_same dt mv s.dyn s M.ok.inv.blists.dynN
    set s1 := updateIdle s dt mv s.dyn with hs1
    have r1 := q1.rest
    have M1 : Push s1 s1.arbiters := by
      have ea : s1.arbiters = s.arbiters := by rw [r1]
      rw [ea]
      refine ⟨⟨?_, ?_, ?_⟩, M.ev.quiet q1.quiet, by rw [r1]; exact M.unlocked, ?_, ?_, ?_, q1.quiet.stamps M.stamps⟩
      · have e1 : s1.sleeping = s.sleeping := by rw [r1]
        have e2 : s1.roused = s.roused := by rw [r1]
        rw [e1, e2]; exact M.ok.inv.congr q1.all
      · intro b hb
        have e2 : s1.roused = s.roused := by rw [r1]
        rw [e2] at hb
        rw [(q1.bd b).2.1]; exact M.ok.roots b hb
      · intro h; rw [r1]; exact M.ok.unlocked (by rw [r1] at h; exact h)
      · intro b hb
        rw [(q1.bd b).1] at hb
        rw [i1, if_neg (by rw [hb]; simp)]; exact M.kin b hb
      · intro _ r hr a b he ha hb
        rw [q1.quiet.thr] at hr
        rw [(q1.bd _).1] at ha hb
        rw [(q1.quiet.ar r).2.2.1, (q1.quiet.ar r).2.2.2.1] at he
        exact absurd ⟨ha, hb⟩ (hheld r hr a b he)
      · intro h b; rw [(q1.bd b).2.1]; exact M.never (by rw [r1] at h; exact h) b
    obtain ⟨s2, e2, M2, F2, t2⟩ := pushArbs_push s1.arbiters s1 M1
    rw [e2]
    have hth2 : s2.threshold = some th := by rw [F2.threshold, r1]; exact ht
    simp only [hth2]
    obtain ⟨s3, e3, M3, F3, t3, h3⟩ := holdJoints_push s2.cons s2 M2
    rw [e3]
    simp only
    have I2 := M2.ok.nil M2.unlocked
    have I3 := M3.ok.nil M3.unlocked
    have hpos := hth th ht
    have hth3 : s3.threshold ≠ none := by rw [F3.threshold, hth2]; simp
    have hkin : ∀ x y, Adj s3 x y → (s3.bd x).kind = .dynamic → (s3.bd y).kind = .kinematic → (s3.bd x).idle < th := by
      intro x y hadj hx hy
      have key : (s3.bd x).idle = 0 := by
        rcases hadj with ⟨r, hr, he⟩ | ⟨c, hc, he⟩
        · exact M3.held hth3 r hr x y he hx hy
        · rw [F3.cn] at hc he
          by_cases hm : c ∈ s2.cons
          · exact h3 c hm x y he hx hy
          · exfalso
            have hoff : off s2 [] (owner s2 (s2.cn c).a (s2.cn c).b) := by
              by_contra hn
              exact hm ((I2.joints.mem c).2 ⟨hc, hn⟩)
            obtain ⟨g1, g2⟩ := I2.joints.group c hc
            obtain ⟨f1, f2⟩ := frozen_both g1 g2 hoff
            rw [(F3.bd _).1] at hy
            have hyf : frozen s2 [] y := by
              rcases he with ⟨h1, h2⟩ | ⟨h1, h2⟩
              · rw [← h2]; exact f2
              · rw [← h1]; exact f1
            rcases hyf with h | h
            · rw [hy] at h; cases h
            · rw [off_nil] at h
              exact h (I2.static_root (by rw [hy]; simp))
      rw [key]; exact hpos
    have hfull3 : ∀ c ∈ s3.dyn, ∀ x ∈ (s3.bd c).shapes, (s3.sh x).space = true := by
      intro c hc x hx
      have h1 := (I3.blists.dyn c).1 hc
      have ek : (s3.bd c).kind = (s.bd c).kind := by rw [(F3.bd c).1, (F2.bd c).1, (q1.bd c).1]
      have es : (s3.bd c).space = (s.bd c).space := by rw [(F3.bd c).2.2.2, (F2.bd c).2.2.2, (q1.bd c).2.2.2.2.2.2]
      have ex : (s3.bd c).shapes = (s.bd c).shapes := by rw [(F3.bd c).2.1, (F2.bd c).2.1, (q1.bd c).2.2.2.1]
      have esh : s3.sh = s.sh := by rw [F3.sh, F2.sh, r1]
      rw [ex] at hx
      rw [esh]
      exact hfull c (es ▸ h1.1) (ek ▸ h1.2.1) x hx
    obtain ⟨s4, j, e4, L4, hj⟩ := sleepLoop_loop hpos hfull3 hkin M3.kin (s3.dyn.length + 1) s3 0 (LoopI.start th M3.ok M3.unlocked) (by omega)
    have hun := L4.finish hj
    have q4 := L4.quiet
    have I4 : Inv s4 s4.sleeping [] [] := by have := L4.inv; rwa [hun] at this
    have hr4 : s4.roused = [] := by rw [L4.roused]; exact M3.ok.unlocked M3.unlocked
    have htake : s4.dyn.take j = s4.dyn := List.take_of_length_le (by simpa using hj)
    have hbusy : ∀ b, Busy s4 th b ↔ Busy s3 th b := by
      intro b
      simp only [Busy, q4.conn, L4.idle]
    have F13 : Frame s s3 := (q1.quiet.toFrame.trans F2.toFrame).trans F3.toFrame
    have hroot13 : ∀ b, (s.bd b).root = none → (s3.bd b).root = none := by
      intro b hb; exact F3.root b (F2.root b (by rw [(q1.bd b).2.1]; exact hb))
    have hroot13' : ∀ b, (s3.bd b).root ≠ none → (s3.bd b).root = (s.bd b).root := by
      intro b hb
      rcases F3.roots b with e | e
      · exact absurd e hb
      · rw [e] at hb ⊢
        rcases F2.roots b with e' | e'
        · exact absurd e' hb
        · rw [e', (q1.bd b).2.1]
    refine ⟨s4, e4, ⟨⟨by rw [hr4]; exact I4, by rw [hr4]; simp, fun _ => hr4⟩, M3.ev.quiet q4, by rw [q4.locked]; exact M3.unlocked, ?_, ?_, ?_, q4.stamps M3.stamps⟩,
      F13.trans q4.toFrame, ?_, ?_⟩
    · intro b hb
      rw [(q4.bd b).1] at hb
      rw [L4.idle]; exact M3.kin b hb
    · intro _ r hr a b he ha hb
      rw [q4.thr] at hr
      rw [(q4.bd _).1] at ha hb
      rw [(q4.ar r).2.2.1, (q4.ar r).2.2.2.1] at he
      rw [L4.idle]
      exact M3.held hth3 r hr a b he ha hb
    · intro h; rw [q4.threshold] at h; exact absurd h hth3
    · intro r
      have ea : s1.arbiters = s.arbiters := by rw [r1]
      rw [q4.thr, t3, t2, q1.quiet.thr, ea]
    · intro th' hth'
      obtain rfl : th = th' := by simpa using hth'
      refine ⟨⟨?_, ?_⟩, ?_⟩
      · intro b hk hs hr
        have hb : b ∈ s4.dyn := (I4.blists.dyn b).2 ⟨hs, by rw [hk]; simp, by rw [off_nil, not_not]; exact hr⟩
        rw [hbusy]
        exact L4.done b (by rw [htake]; exact hb) hk
      · intro b hr
        by_cases hb : b ∈ s3.dyn
        · right
          have hb4 : b ∉ s4.dyn := by
            intro h
            exact ((I4.blists.dyn b).1 h).2.2 (off_nil.2 hr)
          obtain ⟨h1, _, h2⟩ := L4.slept b hb hb4
          rw [hbusy]
          exact ⟨h1, fun c => by rw [h2, q4.conn]⟩
        · left
          have h1 := L4.others b hb
          rw [h1] at hr
          rw [h1, hroot13' b hr, L4.idle]
          refine ⟨rfl, ?_⟩
          have r2 : (s2.bd b).root ≠ none := by
            rcases F3.roots b with e | e
            · exact absurd e hr
            · rw [← e]; exact hr
          have r0 : (s.bd b).root ≠ none := by rw [← hroot13' b hr]; exact hr
          rw [F3.calm b hr, F2.calm b r2, i1 b, if_neg]
          rintro ⟨hd, _⟩
          exact ((M.ok.nil M.unlocked).blists.dyn b).1 hd |>.2.2 (off_nil.2 r0)
      · intro b
        rw [L4.idle]
        rcases F3.idle b with h | h
        · exact Or.inl h
        · rw [h]
          rcases F2.idle b with h | h
          · exact Or.inl h
          · rw [h]; exact Or.inr (i1 b)

end Sp
end Cm
