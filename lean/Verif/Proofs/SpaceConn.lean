import Verif.Proofs.SpaceHistory

/-!
# The members of a sleeping group stay connected

A group falls asleep because its members are connected by contacts and joints. No call takes away a contact or joint of
a sleeping body without waking it, so the members of every sleeping group are connected to each other and to nothing
else.
-/

set_option linter.unusedSectionVars false
set_option linter.unusedSimpArgs false
set_option linter.unusedVariables false

namespace Cm
namespace Sp
open Spec

variable {K : Type} [Zero K] [LT K] [DecidableRel (α := K) (· < ·)] [Add K] [DecidableEq K]

/-- Bodies asleep in the same group are connected, and none of them is idle for less than the threshold. -/
structure Joined (s : St K) : Prop where
  conn : ∀ b c, (s.bd b).root ≠ none → (s.bd c).root = (s.bd b).root → Conn s b c
  slow : ∀ th, s.threshold = some th → ∀ b, (s.bd b).root ≠ none → ¬ (s.bd b).idle < th

theorem Link.group {s : St K} {sl P : List Nat} (I : Inv s sl [] P) {b c : Nat} (h : Link s b c) (hb : (s.bd b).root ≠ none) : (s.bd c).root = (s.bd b).root := by
  obtain ⟨h1, h2, h3⟩ := h
  obtain ⟨g, hg⟩ := Option.ne_none_iff_exists'.1 hb
  have key : ∀ x y, Together s [] x y → Together s [] y x → Ends x y b c → (s.bd c).root = (s.bd b).root := by
    rintro x y t1 t2 (⟨rfl, rfl⟩ | ⟨rfl, rfl⟩)
    · rcases t1 g (by simp) hg with h | h
      · rw [h2] at h; cases h
      · rw [hg]; exact h.2
    · rcases t2 g (by simp) hg with h | h
      · rw [h2] at h; cases h
      · rw [hg]; exact h.2
  rcases h3 with ⟨r, hr, he⟩ | ⟨j, hj, he⟩
  · obtain ⟨t1, t2⟩ := I.arbs.group r hr; exact key _ _ t1 t2 he
  · obtain ⟨t1, t2⟩ := I.joints.group j hj; exact key _ _ t1 t2 he

theorem Conn.group {s : St K} {sl P : List Nat} (I : Inv s sl [] P) {b c : Nat} (h : Conn s b c) (hb : (s.bd b).root ≠ none) : (s.bd c).root = (s.bd b).root := by
  induction h with
  | refl => rfl
  | tail _ h2 ih => rw [h2.group I (by rw [ih]; exact hb), ih]

/-- Nothing falls asleep, and the links of those who stay asleep stay. -/
structure Stays (s s' : St K) : Prop where
  root : ∀ b, (s'.bd b).root ≠ none → (s'.bd b).root = (s.bd b).root
  link : ∀ b c, (s'.bd b).root ≠ none → Link s b c → Link s' b c
  calm : ∀ b, (s'.bd b).root ≠ none → (s'.bd b).idle = (s.bd b).idle
  threshold : s'.threshold = s.threshold

theorem Stays.conn {s s' : St K} (h : Stays s s') {sl P : List Nat} (I : Inv s' sl [] P) {b c : Nat} (hb : (s'.bd b).root ≠ none) (k : Conn s b c) : Conn s' b c := by
  induction k with
  | refl => exact Relation.ReflTransGen.refl
  | tail _ h2 ih =>
    refine Relation.ReflTransGen.tail ih (h.link _ _ ?_ h2)
    rw [Conn.group I ih hb]; exact hb

theorem Stays.joined {s s' : St K} (h : Stays s s') {sl P : List Nat} (I : Inv s' sl [] P) (J : Joined s) : Joined s' := by
  refine ⟨fun b c hb hc => ?_, fun th ht b hb => ?_⟩
  · refine h.conn I hb (J.conn b c ?_ ?_)
    · rw [← h.root b hb]; exact hb
    · rw [← h.root b hb, ← h.root c (by rw [hc]; exact hb)]; exact hc
  · rw [h.calm b hb]
    exact J.slow th (by rw [← h.threshold]; exact ht) b (by rw [← h.root b hb]; exact hb)

theorem Link.mono {s s' : St K} {b c : Nat} (hk : ∀ d, (s.bd d).kind = .dynamic → (d = b ∨ d = c) → (s'.bd d).kind = .dynamic)
    (ha : ∀ r, thr s r → Ends (s.ar r).a (s.ar r).b b c → thr s' r ∧ (s'.ar r).a = (s.ar r).a ∧ (s'.ar r).b = (s.ar r).b)
    (hc : ∀ j, (s.cn j).space = true → Ends (s.cn j).a (s.cn j).b b c → (s'.cn j).space = true ∧ (s'.cn j).a = (s.cn j).a ∧ (s'.cn j).b = (s.cn j).b)
    (h : Link s b c) : Link s' b c := by
  refine ⟨hk b h.1 (Or.inl rfl), hk c h.2.1 (Or.inr rfl), ?_⟩
  rcases h.2.2 with ⟨r, h1, h2⟩ | ⟨j, h1, h2⟩
  · obtain ⟨a1, a2, a3⟩ := ha r h1 h2
    exact Or.inl ⟨r, a1, by rw [a2, a3]; exact h2⟩
  · obtain ⟨a1, a2, a3⟩ := hc j h1 h2
    exact Or.inr ⟨j, a1, by rw [a2, a3]; exact h2⟩

theorem Stays.of_same {s s' : St K} (hb : ∀ b, (s'.bd b).kind = (s.bd b).kind ∧ (s'.bd b).arbs = (s.bd b).arbs ∧ (s'.bd b).idle = (s.bd b).idle)
    (ht : s'.threshold = s.threshold)
    (hr : ∀ b, (s'.bd b).root = none ∨ (s'.bd b).root = (s.bd b).root)
    (ha : ∀ r, (s'.ar r).a = (s.ar r).a ∧ (s'.ar r).b = (s.ar r).b)
    (hc : ∀ j, (s.cn j).space = true → (s'.cn j).space = true) (hc' : ∀ j, (s'.cn j).a = (s.cn j).a ∧ (s'.cn j).b = (s.cn j).b) : Stays s s' := by
  refine ⟨fun b h => (hr b).resolve_left h, fun b c _ h => ?_, fun b _ => (hb b).2.2, ht⟩
  refine h.mono (fun d hd _ => by rw [(hb d).1]; exact hd) (fun r h _ => ⟨?_, ha r⟩) (fun j h _ => ⟨hc j h, hc' j⟩)
  show r ∈ (s'.bd (s'.ar r).a).arbs
  rw [(hb _).2.1, (ha r).1]; exact h

theorem WokenAll.held {s s' : St K} (w : WokenAll s s') : Stays s s' := by
  refine ⟨fun b h => (w.root b).resolve_left h, fun b c _ h => ?_, w.rest, w.quiet.threshold⟩
  exact (w.quiet.link b c).2 h

theorem Stays.trans {s s1 s2 : St K} (h : Stays s s1) (k : Stays s1 s2) : Stays s s2 :=
  ⟨fun b hb => (k.root b hb).trans (h.root b (by rw [← k.root b hb]; exact hb)),
    fun b c hb hl => k.link b c hb (h.link b c (by rw [← k.root b hb]; exact hb) hl),
    fun b hb => (k.calm b hb).trans (h.calm b (by rw [← k.root b hb]; exact hb)), k.threshold.trans h.threshold⟩

theorem activate_held {s s1 : St K} {b : Nat} (G : Good s) (e : activate s b = some s1) : Good s1 ∧ Stays s s1 ∧ Woken s s1 b := by
  obtain ⟨s', e', H', w'⟩ := activate_ok G.ok b
  rw [e, Option.some.injEq] at e'
  subst e'
  exact ⟨G.woken H' w', w'.all.held, w'⟩

theorem moveShapes_rest (o n : Bool) : ∀ (l : List Nat) (s s' : St K), moveShapes s o n l = some s' →
    s'.bd = s.bd ∧ s'.ar = s.ar ∧ s'.cn = s.cn ∧ s'.threshold = s.threshold
  | [], s, s', h => by rw [moveShapes, Option.some.injEq] at h; rw [h]; exact ⟨rfl, rfl, rfl, rfl⟩
  | x :: l, s, s', h => by
    rw [moveShapes] at h
    split at h
    · cases h
    · rename_i s1 e1
      have k := moveShapes_rest o n l _ s' h
      have k1 : s1.bd = s.bd ∧ s1.ar = s.ar ∧ s1.cn = s.cn ∧ s1.threshold = s.threshold := by
        split at e1 <;> (split at e1 <;> first | (cases e1; done) | (rw [Option.some.injEq] at e1; rw [← e1]; exact ⟨rfl, rfl, rfl, rfl⟩))
      have k2 : ∀ t : St K, t = (if n = true then { s1 with statIdx := s1.statIdx ++ [x] } else { s1 with dynIdx := s1.dynIdx ++ [x] }) →
          t.bd = s1.bd ∧ t.ar = s1.ar ∧ t.cn = s1.cn ∧ t.threshold = s1.threshold := by
        intro t ht; rw [ht]; split <;> exact ⟨rfl, rfl, rfl, rfl⟩
      have k3 := k2 _ rfl
      exact ⟨k.1.trans (k3.1.trans k1.1), k.2.1.trans (k3.2.1.trans k1.2.1), k.2.2.1.trans (k3.2.2.1.trans k1.2.2.1), k.2.2.2.trans (k3.2.2.2.trans k1.2.2.2)⟩

theorem SetTypeOk.beside {s : St K} {b : Nat} (G : Good s) (h : SetTypeOk s b) {r : Nat} (hr : r ∈ (s.bd b).arbs) :
    (s.bd (s.ar r).a).root = none ∧ (s.bd (s.ar r).b).root = none := by
  by_cases hk : (s.bd b).kind = .static
  · exact h.arbs hk r hr
  · obtain ⟨ht, he⟩ := (G.inv.arbs.list b r).1 hr
    obtain ⟨g1, g2⟩ := G.inv.arbs.group r ht
    rcases he with he | he
    · rw [← he] at hk
      have ha : (s.bd (s.ar r).a).root = none := by rw [he]; exact h.awake
      exact ⟨ha, g2.other hk ha⟩
    · rw [← he] at hk
      have ha : (s.bd (s.ar r).b).root = none := by rw [he]; exact h.awake
      exact ⟨g1.other hk ha, ha⟩

theorem setType_held {s s' : St K} {b : Nat} {k : Kind} (G : Good s) (h : SetTypeOk s b) (e : setType s b k = some s') : Stays s s' := by
  have I := G.inv
  -- a change of type that touches no list
  have key : ∀ t : St K, (∀ c, (t.bd c).root = (s.bd c).root ∧ (t.bd c).arbs = (s.bd c).arbs ∧ (c ≠ b → (t.bd c).kind = (s.bd c).kind) ∧
      ((s.bd c).root ≠ none → (t.bd c).idle = (s.bd c).idle)) → t.ar = s.ar → t.cn = s.cn → t.threshold = s.threshold → Stays s t := by
    intro t ht ha hc hth
    refine ⟨fun c _ => (ht c).1, fun c d hcr hl => ?_, fun c hcr => (ht c).2.2.2 (by rw [← (ht c).1]; exact hcr), hth⟩
    have hcr' : (s.bd c).root ≠ none := by rw [← (ht c).1]; exact hcr
    have hdr := hl.group I hcr'
    have ne : ∀ z, (z = c ∨ z = d) → z ≠ b := by
      rintro z (rfl | rfl) rfl
      · exact hcr' h.awake
      · rw [h.awake] at hdr; exact hcr' hdr.symm
    refine hl.mono (fun z hz hzz => by rw [(ht z).2.2.1 (ne z hzz)]; exact hz) (fun r hr _ => ⟨?_, by rw [ha], by rw [ha]⟩) (fun j hj _ => ⟨by rw [hc]; exact hj, by rw [hc], by rw [hc]⟩)
    show r ∈ (t.bd (t.ar r).a).arbs
    rw [(ht _).2.1, ha]; exact hr
  unfold setType at e
  simp only at e
  split at e
  · rw [Option.some.injEq] at e; subst e
    exact key s (fun c => ⟨rfl, rfl, fun _ => rfl, fun _ => rfl⟩) rfl rfl rfl
  set s1 : St K := s.setB b fun d => { d with kind := k, idle := 0 } with hs1
  have hs1b : ∀ c, (s1.bd c).root = (s.bd c).root ∧ (s1.bd c).arbs = (s.bd c).arbs ∧ (c ≠ b → (s1.bd c).kind = (s.bd c).kind) ∧
      ((s.bd c).root ≠ none → (s1.bd c).idle = (s.bd c).idle) := by
    intro c; simp only [hs1, St.setB]; split
    · rename_i e; subst e; exact ⟨rfl, rfl, fun h => absurd rfl h, fun hc => absurd h.awake hc⟩
    · exact ⟨rfl, rfl, fun _ => rfl, fun _ => rfl⟩
  split at e
  · rw [Option.some.injEq] at e; subst e
    exact key s1 hs1b rfl rfl rfl
  split at e
  · cases e
  rename_i s2 e2
  obtain ⟨m1, m2, m3, m4⟩ := moveShapes_rest _ _ _ _ _ e
  have hs2 : (∀ c, (s2.bd c).root = (s1.bd c).root ∧ (s2.bd c).arbs = (s1.bd c).arbs ∧ (s2.bd c).kind = (s1.bd c).kind ∧
      ((s.bd c).root ≠ none → (s2.bd c).idle = (s1.bd c).idle)) ∧ s2.ar = s1.ar ∧ s2.cn = s1.cn ∧ s2.threshold = s1.threshold := by
    have hid : ∀ t : St K, some s1 = some t → (∀ c, (t.bd c).root = (s1.bd c).root ∧ (t.bd c).arbs = (s1.bd c).arbs ∧ (t.bd c).kind = (s1.bd c).kind ∧
        ((s.bd c).root ≠ none → (t.bd c).idle = (s1.bd c).idle)) ∧ t.ar = s1.ar ∧ t.cn = s1.cn ∧ t.threshold = s1.threshold := by
      intro t ht; rw [Option.some.injEq] at ht; subst ht; exact ⟨fun _ => ⟨rfl, rfl, rfl, fun _ => rfl⟩, rfl, rfl, rfl⟩
    split at e2
    · unfold activate at e2
      split at e2
      · exact hid s2 e2
      · have hroot : ((s1.setB b fun d => { d with idle := 0 }).bd b).root = none := by simp [hs1, St.setB, h.awake]
        simp only [hroot] at e2
        rw [Option.some.injEq] at e2
        have t := (touchIdle_same ((s1.setB b fun d => { d with idle := 0 }).bd b).arbs (s1.setB b fun d => { d with idle := 0 }) b).1
        have t0 := (SameI.setB_idle s1 b (fun _ => (0 : K))).trans t
        rw [← e2]
        refine ⟨fun c => ?_, ?_, ?_, ?_⟩
        · have := t0.bd c
          refine ⟨this.2.1, this.2.2.2.2.1, this.1, fun hc => ?_⟩
          rw [touchIdle_other]
          · have hcb : c ≠ b := by rintro rfl; exact hc h.awake
            simp only [St.setB, if_neg hcb]
          · intro r hr
            have hr' : r ∈ (s.bd b).arbs := by
              simpa [hs1, St.setB] using hr
            obtain ⟨h1, h2⟩ := h.beside G hr'
            have ha : (s1.setB b fun d => { d with idle := 0 }).ar r = s.ar r := rfl
            rw [ha]
            rintro rfl
            split at hc
            · exact hc h2
            · exact hc h1
        · rw [t0.rest]
        · rw [t0.rest]
        · rw [t0.rest]
    · exact hid s2 e2
  have hs3 : ∀ t : St K, t = (if (s.bd b).kind = Kind.static then { s2 with stat := s2.stat.erase b, dyn := s2.dyn ++ [b] }
          else if k = Kind.static then { s2 with dyn := s2.dyn.erase b, stat := s2.stat ++ [b] } else s2) → t.bd = s2.bd ∧ t.ar = s2.ar ∧ t.cn = s2.cn ∧ t.threshold = s2.threshold := by
    intro t ht; rw [ht]; split
    · exact ⟨rfl, rfl, rfl, rfl⟩
    · split <;> exact ⟨rfl, rfl, rfl, rfl⟩
  obtain ⟨n1, n2, n3, n4⟩ := hs3 _ rfl
  refine key s' (fun c => ?_) ?_ ?_ ?_
  · rw [m1, n1]
    obtain ⟨a1, a2, a3, a4⟩ := hs2.1 c
    obtain ⟨b1, b2, b3, b4⟩ := hs1b c
    exact ⟨a1.trans b1, a2.trans b2, fun h => a3.trans (b3 h), fun h => (a4 h).trans (b4 h)⟩
  · rw [m2, n2, hs2.2.1]; rfl
  · rw [m3, n3, hs2.2.2.1]; rfl
  · rw [m4, n4, hs2.2.2.2]; rfl

theorem removeShape_held {s s' : St K} {x : Nat} (G : Good s) (D : ShapeGone s s' x) : Stays s s' := by
  refine ⟨fun b h => (D.woken b).resolve_left h, fun b c hb hl => ?_, D.calm, D.threshold⟩
  refine hl.mono (fun d hd _ => by rw [(D.bd d).1]; exact hd) (fun r hr he => D.held r hr ?_) (fun j hj _ => by rw [D.cn]; exact ⟨hj, rfl, rfl⟩)
  rcases he with ⟨h1, h2⟩ | ⟨h1, h2⟩
  · left; rw [h1]; exact hb
  · right; rw [h2]; exact hb

theorem step_joined {s m s' : St K} {inp : StepIn K} (G : Good s) (G' : Good s') (J : Joined s) (D : StepDone s m s' inp) : Joined s' := by
  refine ⟨fun b c hb hc => ?_, fun th ht b hb => ?_⟩
  swap
  · have hth : s.threshold = some th := by rw [← D.threshold]; exact ht
    have hrb := (D.roots b).resolve_left hb
    have hbm : (m.bd b).root ≠ none := by rw [← hrb]; exact hb
    rw [D.calm b hb]
    rcases (D.slept th hth).asleep b hbm with ⟨e1, e2⟩ | e
    · rw [e2]; exact J.slow th hth b (by rw [← e1]; exact hbm)
    · intro hlt; exact e.1 ⟨b, Relation.ReflTransGen.refl, hlt⟩
  have hrb := (D.roots b).resolve_left hb
  have hrc := (D.roots c).resolve_left (by rw [hc]; exact hb)
  rw [D.conn]
  cases hth : s.threshold with
  | none =>
    have := G'.never (by rw [D.threshold]; exact hth) b
    exact absurd this hb
  | some th =>
    have S := D.slept th hth
    have hbm : (m.bd b).root ≠ none := by rw [← hrb]; exact hb
    rcases S.asleep b hbm with ⟨e, _⟩ | e
    · -- asleep all along
      have old : ∀ d, Conn s b d → Conn m b d ∧ (s'.bd d).root = (s'.bd b).root := by
        intro d hd
        induction hd with
        | refl => exact ⟨Relation.ReflTransGen.refl, rfl⟩
        | @tail y z h1 h2 ih =>
          have hy : (s.bd y).root ≠ none := by rw [Conn.group G.inv h1 (by rw [← e]; exact hbm), ← e]; exact hbm
          have hl : Link m y z := by
            refine h2.mono (fun d hd _ => by rw [(D.kinds d).1]; exact hd) (fun r hr he => ?_) (fun j hj _ => ?_)
            · have hoff : off s [] (owner s (s.ar r).a (s.ar r).b) := by
                by_contra hn
                obtain ⟨g1, g2⟩ := G.inv.arbs.group r hr
                have := awake_both G.inv g1 g2 hn
                rcases he with ⟨h1, h2⟩ | ⟨h1, h2⟩
                · rw [h1] at this; exact hy this.1
                · rw [h2] at this; exact hy this.2
              exact ⟨(D.linked r).2 (Or.inl ⟨hr, hoff⟩), D.ends r hr hoff⟩
            · rw [D.joints]; exact ⟨hj, rfl, rfl⟩
          have hcn : Conn m b z := Relation.ReflTransGen.tail ih.1 hl
          exact ⟨hcn, Conn.group G'.inv ((D.conn b z).2 hcn) hb⟩
      have hbc : (m.bd c).root = (m.bd b).root := by rw [← hrb, ← hrc]; exact hc
      rcases S.asleep c (by rw [hbc]; exact hbm) with ⟨e', _⟩ | e'
      · exact (old c (J.conn b c (by rw [← e]; exact hbm) (by rw [← e', ← e]; exact hbc))).1
      · exact ((e'.2 b).1 hbc.symm).symm
    · exact (e.2 c).1 (by rw [← hrb, ← hrc]; exact hc)

/-- No allowed call separates the members of a sleeping group. -/
theorem run_joined {s s' : St K} (G : Good s) (J : Joined s) (o : Op K) (h : o.Allowed s) (e : o.run s = some s') (G' : Good s') : Joined s' := by
  cases o with
  | attach x b =>
    simp only [Op.run, Option.some.injEq] at e
    subst e
    refine Stays.joined (s := s) (Stays.of_same ?_ ?_ ?_ ?_ ?_ ?_) G'.inv J
    · intro c; simp only [Sp.attach, St.setB, St.setS]; split
      · rename_i e; rw [e]; exact ⟨rfl, rfl, rfl⟩
      · exact ⟨rfl, rfl, rfl⟩
    · rfl
    · intro c; right; simp only [Sp.attach, St.setB, St.setS]; split
      · rename_i e; rw [e]
      · rfl
    · exact fun _ => ⟨rfl, rfl⟩
    · exact fun _ h => h
    · exact fun _ => ⟨rfl, rfl⟩
  | addBody b =>
    simp only [Op.run, Option.some.injEq] at e
    subst e
    have eb : ∀ c, (Sp.addBody s b).bd c = if c = b then { s.bd b with space := true } else s.bd c := by
      intro c; simp only [Sp.addBody, St.setB]; split <;> split <;> rfl
    have es : (Sp.addBody s b).ar = s.ar ∧ (Sp.addBody s b).cn = s.cn ∧ (Sp.addBody s b).threshold = s.threshold := by
      simp only [Sp.addBody, St.setB]; split <;> exact ⟨rfl, rfl, rfl⟩
    refine Stays.joined (s := s) (Stays.of_same ?_ ?_ ?_ ?_ ?_ ?_) G'.inv J
    · intro c; rw [eb]; split
      · rename_i e; rw [e]; exact ⟨rfl, rfl, rfl⟩
      · exact ⟨rfl, rfl, rfl⟩
    · exact es.2.2
    · intro c; right; rw [eb]; split
      · rename_i e; rw [e]
      · rfl
    · intro r; rw [es.1]; exact ⟨rfl, rfl⟩
    · intro j hj; rw [es.2.1]; exact hj
    · intro r; rw [es.2.1]; exact ⟨rfl, rfl⟩
  | removeBody b =>
    simp only [Op.run] at e
    unfold Sp.removeBody at e
    split at e
    · cases e
    rename_i s1 e1
    obtain ⟨G1, H1, _⟩ := activate_held G e1
    rw [Option.some.injEq] at e
    have eb : ∀ c, s'.bd c = if c = b then { s1.bd b with space := false } else s1.bd c := by
      intro c; rw [← e]; simp only [St.setB]; split <;> split <;> rfl
    have es : s'.ar = s1.ar ∧ s'.cn = s1.cn ∧ s'.threshold = s1.threshold := by
      rw [← e]; simp only [St.setB]; split <;> exact ⟨rfl, rfl, rfl⟩
    refine Stays.joined (s := s) (H1.trans (Stays.of_same ?_ ?_ ?_ ?_ ?_ ?_)) G'.inv J
    · intro c; rw [eb]; split
      · rename_i e; rw [e]; exact ⟨rfl, rfl, rfl⟩
      · exact ⟨rfl, rfl, rfl⟩
    · exact es.2.2
    · intro c; right; rw [eb]; split
      · rename_i e; rw [e]
      · rfl
    · intro r; rw [es.1]; exact ⟨rfl, rfl⟩
    · intro j hj; rw [es.2.1]; exact hj
    · intro r; rw [es.2.1]; exact ⟨rfl, rfl⟩
  | addShape x =>
    simp only [Op.run] at e
    unfold Sp.addShape at e
    simp only at e
    split at e
    · rw [Option.some.injEq] at e; subst e
      exact Stays.joined (s := s) (Stays.of_same (fun _ => ⟨rfl, rfl, rfl⟩) rfl (fun _ => Or.inr rfl) (fun _ => ⟨rfl, rfl⟩) (fun _ h => h) (fun _ => ⟨rfl, rfl⟩)) G'.inv J
    · split at e
      · cases e
      rename_i s1 e1
      obtain ⟨G1, H1, _⟩ := activate_held G e1
      rw [Option.some.injEq] at e; subst e
      exact Stays.joined (s := s) (H1.trans (Stays.of_same (fun _ => ⟨rfl, rfl, rfl⟩) rfl (fun _ => Or.inr rfl) (fun _ => ⟨rfl, rfl⟩) (fun _ h => h) (fun _ => ⟨rfl, rfl⟩))) G'.inv J
  | removeShape x =>
    obtain ⟨s2, e2, _, D⟩ := removeShape_good G h
    simp only [Op.run] at e
    rw [e, Option.some.injEq] at e2
    subst e2
    exact (removeShape_held G D).joined G'.inv J
  | addJoint c =>
    simp only [Op.run] at e
    unfold addConstraint at e
    simp only at e
    split at e
    · cases e
    rename_i s1 e1
    obtain ⟨G1, H1, _⟩ := activate_held G e1
    split at e
    · cases e
    rename_i s2 e2
    obtain ⟨G2, H2, _⟩ := activate_held G1 e2
    rw [Option.some.injEq] at e
    have hs := twice_same { s2 with cons := s2.cons ++ [c] } (s.cn c).a (s.cn c).b (fun l => c :: l)
    refine Stays.joined (s := s) ((H1.trans H2).trans (Stays.of_same ?_ ?_ ?_ ?_ ?_ ?_)) G'.inv J
    · intro d; rw [← e]; exact ⟨(hs d).1, (hs d).2.2.2.1, (hs d).2.2.2.2.2.2⟩
    · rw [← e]; rfl
    · intro d; rw [← e]; exact Or.inr (hs d).2.1
    · intro r; rw [← e]; exact ⟨rfl, rfl⟩
    · intro j hj; rw [← e]; simp only [St.setC, St.setB]; split
      · rfl
      · exact hj
    · intro j; rw [← e]; simp only [St.setC, St.setB]; split
      · rename_i e; subst e; exact ⟨rfl, rfl⟩
      · exact ⟨rfl, rfl⟩
  | removeJoint c =>
    simp only [Op.run] at e
    unfold removeConstraint at e
    simp only at e
    split at e
    · cases e
    rename_i s1 e1
    obtain ⟨G1, H1, w1⟩ := activate_held G e1
    split at e
    · cases e
    rename_i s2 e2
    obtain ⟨G2, H2, w2⟩ := activate_held G1 e2
    have ra1 := w1.awakeB G.inv
    have rb := w2.awakeB G1.inv
    have ra : (s2.bd (s.cn c).a).root = none := by
      rcases w2.all.root (s.cn c).a with e | e
      · exact e
      · rw [e]; exact ra1
    have q := w1.quiet.trans w2.quiet
    split at e
    swap
    · cases e
    rw [Option.some.injEq] at e
    have hs := twice_same { s2 with cons := s2.cons.erase c } (s.cn c).a (s.cn c).b (fun l => l.erase c)
    refine Stays.joined (s := s) ((H1.trans H2).trans (s2 := s') ⟨fun d _ => ?_, fun u v hu hl => ?_, fun d _ => by rw [← e]; exact (hs d).2.2.2.2.2.2, by rw [← e]; rfl⟩) G'.inv J
    · rw [← e]; exact (hs d).2.1
    · have hu2 : (s2.bd u).root ≠ none := by rw [← e] at hu; rw [← (hs u).2.1]; exact hu
      refine hl.mono (fun d hd _ => ?_) (fun r hr _ => ⟨?_, ?_, ?_⟩) (fun j hj he => ?_)
      · rw [← e]; exact (hs d).1.trans hd
      · rw [← e]
        have : r ∈ (s2.bd (s2.ar r).a).arbs := hr
        rw [← (hs _).2.2.2.1] at this
        exact this
      · rw [← e]; rfl
      · rw [← e]; rfl
      · have hjc : j ≠ c := by
          rintro rfl
          rw [q.cn] at he
          rcases he with ⟨h1, _⟩ | ⟨_, h2⟩
          · rw [← h1] at hu2; exact hu2 ra
          · rw [← h2] at hu2; exact hu2 rb
        rw [← e]; simp only [St.setC, St.setB, if_neg hjc]
        exact ⟨hj, trivial, trivial⟩
  | setType b k => exact (setType_held G h e).joined G'.inv J
  | wake b =>
    obtain ⟨_, H1, _⟩ := activate_held G e
    exact H1.joined G'.inv J
  | gravity =>
    obtain ⟨s2, e2, _, w, _⟩ := setGravity_good G
    simp only [Op.run] at e
    rw [e, Option.some.injEq] at e2
    subst e2
    exact w.held.joined G'.inv J
  | step inp =>
    by_cases hz : inp.dt = 0
    · simp only [Op.run, stepPublic, if_pos hz, Option.some.injEq] at e
      rw [← e]; exact J
    obtain ⟨s2, m, e2, G2, D⟩ := step_ok G inp (h hz)
    simp only [Op.run, stepPublic, if_neg hz] at e
    rw [e, Option.some.injEq] at e2
    subst e2
    exact step_joined G G' J D

theorem runAll_joined : ∀ (l : List (Op K)) (s s' : St K) (L : Listed), Good s → Agree s L → Joined s → Allowed s l → runAll s l = some s' → Joined s'
  | [], s, s', L, G, A, J, _, e => by simp only [runAll, Option.some.injEq] at e; rw [← e]; exact J
  | o :: l, s, s', L, G, A, J, h, e => by
    obtain ⟨s1, e1, G1, A1⟩ := run_good G A o h.1
    rw [runAll, e1] at e
    exact runAll_joined l s1 s' _ G1 A1 (run_joined G J o h.1 e1 G1) (h.2 s1 e1) e

theorem new_joined (nb : Nat) (kind : Nat → Kind) (ends : Nat → Nat × Nat) (sensor : Nat → Bool) (persistence : Nat) (threshold : Option K) :
    Joined (new nb kind ends sensor persistence threshold) := by
  exact ⟨fun b c hb => absurd rfl hb, fun th _ b hb => absurd rfl hb⟩

end Sp
end Cm
