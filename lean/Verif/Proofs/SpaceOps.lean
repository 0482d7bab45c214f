import Verif.Proofs.SpaceStep

/-! # Adding and removing bodies, shapes and joints -/
set_option linter.unusedSectionVars false
set_option linter.unusedSimpArgs false
set_option linter.unusedVariables false
set_option linter.unusedTactic false
set_option linter.unreachableTactic false

namespace Cm
namespace Sp
open Spec
variable {K : Type} [Zero K] [LT K] [DecidableRel (α := K) (· < ·)]

theorem Good.roused {s : St K} (G : Good s) : s.roused = [] := G.ok.unlocked G.unlocked

theorem off_root {s s' : St K} (hr : ∀ b, (s'.bd b).root = (s.bd b).root) (b : Nat) : off s' [] b ↔ off s [] b := off_congr hr b

/-- What is left to show for a call that leaves collisions and parameters alone. -/
theorem Good.update {s s' : St K} {sl : List Nat} (G : Good s) (hsl : s'.sleeping = sl) (I : Inv s' sl [] []) (hb : ∀ b, (s'.bd b).arbs = (s.bd b).arbs)
    (har : s'.ar = s.ar) (hc : s'.cached = s.cached) (he : s'.evs = s.evs) (hst : s'.stamp = s.stamp) (hp : s'.pool = s.pool)
    (hf : s'.fresh = s.fresh) (hro : s'.roused = s.roused) (hl : s'.locked = s.locked)
    (hk : ∀ b, (s'.bd b).kind = .kinematic → (s'.bd b).idle = 0) (hr : ∀ b, (s.bd b).root = none → (s'.bd b).root = none)
    (hper : s'.persistence = s.persistence) (ht : s'.threshold = s.threshold) : Good s' := by
  have hthr : ∀ r, thr s' r ↔ thr s r := by intro r; simp only [thr, hb, har]
  refine ⟨⟨by rw [hro, G.roused, hsl]; exact I, by rw [hro, G.roused]; simp, fun _ => by rw [hro, G.roused]⟩,
    G.ev.congr (fun r => by simp only [live, hc, hthr]) hthr (fun r => by rw [har]; exact ⟨rfl, rfl, rfl⟩) he
      (fun r _ h => by rw [har, hst]; exact h) hp hf, by rw [hl]; exact G.unlocked, hk, ?_, by rw [hper]; exact G.per, by rw [ht]; exact G.th⟩
  intro h b; exact hr b (G.never (by rw [← ht]; exact h) b)

/-! ### Attaching a shape to a body -/

/-- The shape is on no body yet, and the body is awake. -/
structure AttachOk (s : St K) (x b : Nat) : Prop where
  free : ∀ c, x ∉ (s.bd c).shapes
  awake : (s.bd b).root = none

theorem attach_good {s : St K} {x b : Nat} (G : Good s) (h : AttachOk s x b) : Good (attach s x b) := by
  have I := G.inv
  set s' := attach s x b with hs'
  have hxs : (s.sh x).space = false := by
    by_contra hc
    simp only [Bool.not_eq_false] at hc
    exact h.free _ (I.shapes.own x hc)
  have hbd : ∀ c, s'.bd c = if c = b then { s.bd b with shapes := (s.bd b).shapes ++ [x] } else s.bd c := by
    intro c; simp only [hs', attach, St.setB, St.setS]
  have hsame : ∀ c, (s'.bd c).kind = (s.bd c).kind ∧ (s'.bd c).root = (s.bd c).root ∧ (s'.bd c).next = (s.bd c).next ∧ (s'.bd c).arbs = (s.bd c).arbs ∧
      (s'.bd c).cons = (s.bd c).cons ∧ (s'.bd c).space = (s.bd c).space ∧ (s'.bd c).idle = (s.bd c).idle := by
    intro c; rw [hbd]; split
    · rename_i e; subst e; exact ⟨rfl, rfl, rfl, rfl, rfl, rfl, rfl⟩
    · exact ⟨rfl, rfl, rfl, rfl, rfl, rfl, rfl⟩
  have hsh : ∀ y, s'.sh y = if y = x then { s.sh x with body := b } else s.sh y := by
    intro y; simp only [hs', attach, St.setB, St.setS]
  have hsp : ∀ y, (s'.sh y).space = (s.sh y).space := by
    intro y; rw [hsh]; split
    · rename_i e; rw [e]
    · rfl
  have hbo : ∀ y, (s.sh y).space = true → s'.sh y = s.sh y := by
    intro y hy; rw [hsh, if_neg]; rintro rfl; rw [hxs] at hy; cases hy
  have hshp : ∀ c y, y ∈ (s'.bd c).shapes ↔ (y ∈ (s.bd c).shapes ∨ (c = b ∧ y = x)) := by
    intro c y; rw [hbd]; split
    · rename_i e; subst e; simp
    · rename_i e; simp [e]
  have hk := fun c => (hsame c).1
  have hr := fun c => (hsame c).2.1
  have hfz : ∀ c, frozen s' [] c ↔ frozen s [] c := frozen_congr hk hr
  have hofs : ∀ c, off s' [] c ↔ off s [] c := off_congr hr
  refine G.update (s' := s') rfl ⟨?_, ?_, ?_, ?_, ?_⟩ (fun c => (hsame c).2.2.2.1) rfl rfl rfl rfl rfl rfl rfl rfl ?_ ?_ rfl rfl
  · exact I.groups.congr hk hr (fun c => (hsame c).2.2.1) (fun c => (hsame c).2.2.2.2.2.1) rfl
  · exact I.blists.congr hk hr (fun c => (hsame c).2.2.2.2.2.1) rfl rfl
  · have S := I.shapes
    refine ⟨S.dynN, S.statN, ?_, ?_, ?_, ?_, ?_, ?_, ?_⟩
    · intro y
      show y ∈ s.dynIdx ↔ _
      rw [hsp, hfz, S.dyn]
      constructor
      · rintro ⟨h1, h2⟩; rw [hbo y h1]; exact ⟨h1, h2⟩
      · rintro ⟨h1, h2⟩; rw [hbo y h1] at h2; exact ⟨h1, h2⟩
    · intro y
      show y ∈ s.statIdx ↔ _
      rw [hsp, hfz, S.stat]
      constructor
      · rintro ⟨h1, h2⟩; rw [hbo y h1]; exact ⟨h1, h2⟩
      · rintro ⟨h1, h2⟩; rw [hbo y h1] at h2; exact ⟨h1, h2⟩
    · intro c y hy
      rw [hsh]
      rcases (hshp c y).1 hy with h1 | ⟨rfl, rfl⟩
      · rw [if_neg]
        · exact S.att c y h1
        · rintro rfl; exact h.free c h1
      · rw [if_pos rfl]
    · intro c
      rw [hbd]; split
      · show ((s.bd b).shapes ++ [x]).Nodup
        rw [List.nodup_append]
        exact ⟨S.attN b, by simp, by rintro y hy z hz rfl; rw [List.mem_singleton] at hz; subst hz; exact h.free b hy⟩
      · exact S.attN c
    · intro y hy
      rw [hsp] at hy
      rw [hbo y hy, hshp]; exact Or.inl (S.own y hy)
    · intro c y ho hy
      rw [hofs] at ho
      rw [hsp]
      rcases (hshp c y).1 hy with h1 | ⟨rfl, rfl⟩
      · exact S.full c y ho h1
      · exact absurd h.awake (off_nil.1 ho)
    · intro y hy
      rw [hsp] at hy
      rw [hbo y hy, hk, (hsame _).2.2.2.2.2.1]; exact S.home y hy
  · exact I.joints.congr hk hr (fun c => (hsame c).2.2.2.2.2.1) (fun c => (hsame c).2.2.2.2.1) rfl rfl
  · have A := I.arbs
    have ht : ∀ r, thr s' r ↔ thr s r := by intro r; show r ∈ (s'.bd (s.ar r).a).arbs ↔ _; rw [(hsame _).2.2.2.1]; exact Iff.rfl
    have hl : ∀ r, live s' r ↔ live s r := by intro r; show (r ∈ s.cached ∨ thr s' r) ↔ _; rw [ht]; exact Iff.rfl
    have how : ∀ p q, owner s' p q = owner s p q := owner_congr hk
    refine ⟨A.arbN, A.cachedN, A.pendN, ?_, ?_, ?_, ?_, ?_, ?_, ?_, ?_, ?_, ?_⟩
    · intro r
      show r ∈ s.arbiters ↔ _
      rw [A.arb, ht, hofs, how]; exact Iff.rfl
    · intro c r; rw [(hsame c).2.2.2.1, ht]; exact A.list c r
    · intro c; rw [(hsame c).2.2.2.1]; exact A.listN c
    · simp
    · intro r; rw [ht, hofs, how]; exact A.cach r
    · intro r; rw [hl]; exact A.ne r
    · intro r hr'
      obtain ⟨a1, a2, a3, a4⟩ := A.shp r ((hl r).1 hr')
      show (s.ar r).a = (s'.sh (s.ar r).sa).body ∧ (s.ar r).b = (s'.sh (s.ar r).sb).body ∧ (s'.sh (s.ar r).sa).space = true ∧ (s'.sh (s.ar r).sb).space = true
      rw [hbo _ a3, hbo _ a4]; exact ⟨a1, a2, a3, a4⟩
    · intro r r'; rw [hl, hl]; exact A.uniq r r'
    · intro r; rw [ht]
      intro h'
      obtain ⟨g1, g2⟩ := A.group r h'
      exact ⟨g1.congr hr hk, g2.congr hr hk⟩
    · intro r; rw [hl]; exact A.ids r
  · intro c; rw [hk, (hsame c).2.2.2.2.2.2]; exact G.kin c
  · intro c; rw [hr]; exact id

/-! ### Adding a body -/

theorem addBody_good {s : St K} {b : Nat} (G : Good s) (hb : b < s.nb) (hn : (s.bd b).space = false) : Good (addBody s b) := by
  have I := G.inv
  set s' := addBody s b with hs'
  have hroot : (s.bd b).root = none := by
    by_contra hc
    obtain ⟨g, hg⟩ := Option.ne_none_iff_exists'.1 hc
    have := (I.groups.root b g (by simp) hg).2.2
    rw [hn] at this; cases this
  have hbd : ∀ c, s'.bd c = if c = b then { s.bd b with space := true } else s.bd c := by
    intro c; by_cases hst : (s.bd b).kind = .static <;> simp only [hs', addBody, St.setB, hst, if_true, if_false]
  have hsame : ∀ c, (s'.bd c).kind = (s.bd c).kind ∧ (s'.bd c).root = (s.bd c).root ∧ (s'.bd c).next = (s.bd c).next ∧ (s'.bd c).arbs = (s.bd c).arbs ∧
      (s'.bd c).cons = (s.bd c).cons ∧ (s'.bd c).shapes = (s.bd c).shapes ∧ (s'.bd c).idle = (s.bd c).idle := by
    intro c; rw [hbd]; split
    · rename_i e; subst e; exact ⟨rfl, rfl, rfl, rfl, rfl, rfl, rfl⟩
    · exact ⟨rfl, rfl, rfl, rfl, rfl, rfl, rfl⟩
  have hsp : ∀ c, (s'.bd c).space = true ↔ ((s.bd c).space = true ∨ c = b) := by
    intro c; rw [hbd]; split
    · rename_i e; simp [e]
    · rename_i e; simp [e]
  have hdyn : s'.dyn = if (s.bd b).kind = .static then s.dyn else s.dyn ++ [b] := by
    by_cases hst : (s.bd b).kind = .static <;> simp only [hs', addBody, St.setB, hst, if_true, if_false]
  have hstat : s'.stat = if (s.bd b).kind = .static then s.stat ++ [b] else s.stat := by
    by_cases hst : (s.bd b).kind = .static <;> simp only [hs', addBody, St.setB, hst, if_true, if_false]
  have e1 : s' = { s with bd := s'.bd, dyn := s'.dyn, stat := s'.stat } := by
    by_cases hst : (s.bd b).kind = .static <;> simp only [hs', addBody, St.setB, hst, if_true, if_false]
  have hk := fun c => (hsame c).1
  have hr := fun c => (hsame c).2.1
  have hfz : ∀ c, frozen s' [] c ↔ frozen s [] c := frozen_congr hk hr
  have hofs : ∀ c, off s' [] c ↔ off s [] c := off_congr hr
  have hsh : s'.sh = s.sh := by rw [e1]
  have hsl : s'.sleeping = s.sleeping := by rw [e1]
  have B := I.blists
  have hbnot : b ∉ s.dyn ∧ b ∉ s.stat := by
    constructor
    · intro h; have := ((B.dyn b).1 h).1; rw [hn] at this; cases this
    · intro h; have := ((B.stat b).1 h).1; rw [hn] at this; cases this
  refine G.update (s' := s') hsl ⟨?_, ?_, ?_, ?_, ?_⟩ (fun c => (hsame c).2.2.2.1) (by rw [e1]) (by rw [e1]) (by rw [e1]) (by rw [e1]) (by rw [e1])
    (by rw [e1]) (by rw [e1]) (by rw [e1]) ?_ ?_ (by rw [e1]) (by rw [e1])
  · have g := I.groups
    refine ⟨g.nodup, g.nodupT, ?_, ?_, by simp, ?_, ?_⟩
    · intro r hr'
      obtain ⟨l, h1, h2, h3⟩ := g.chain r hr'
      exact ⟨l, h1.congr (fun c => (hsame c).2.2.1), h2, fun c => by rw [hr c]; exact h3 c⟩
    · intro c r h1 h2
      rw [hr] at h2
      obtain ⟨a1, a2, a3⟩ := g.root c r h1 h2
      exact ⟨a1, by rw [hk]; exact a2, (hsp c).2 (Or.inl a3)⟩
    · intro c; rw [hr, (hsame c).2.2.1]; exact g.next c
    · intro c hc
      have hnb : s'.nb = s.nb := by rw [e1]
      rw [hnb]
      rcases (hsp c).1 hc with h | h
      · exact g.nb c h
      · rw [h]; exact hb
  · refine ⟨?_, ?_, ?_, ?_⟩
    · rw [hdyn]; split
      · exact B.dynN
      · rw [List.nodup_append]; exact ⟨B.dynN, by simp, by rintro y hy z hz rfl; rw [List.mem_singleton] at hz; subst hz; exact hbnot.1 hy⟩
    · rw [hstat]; split
      · rw [List.nodup_append]; exact ⟨B.statN, by simp, by rintro y hy z hz rfl; rw [List.mem_singleton] at hz; subst hz; exact hbnot.2 hy⟩
      · exact B.statN
    · intro c
      rw [hk, hofs, hsp, hdyn]
      by_cases hst : (s.bd b).kind = .static
      · rw [if_pos hst, B.dyn]
        constructor
        · rintro ⟨h1, h2, h3⟩; exact ⟨Or.inl h1, h2, h3⟩
        · rintro ⟨h1 | h1, h2, h3⟩
          · exact ⟨h1, h2, h3⟩
          · rw [h1] at h2; exact absurd hst h2
      · rw [if_neg hst, List.mem_append, List.mem_singleton, B.dyn]
        constructor
        · rintro (⟨h1, h2, h3⟩ | rfl)
          · exact ⟨Or.inl h1, h2, h3⟩
          · exact ⟨Or.inr rfl, hst, by rw [off_nil]; simp [hroot]⟩
        · rintro ⟨h1 | h1, h2, h3⟩
          · exact Or.inl ⟨h1, h2, h3⟩
          · exact Or.inr h1
    · intro c
      rw [hk, hsp, hstat]
      by_cases hst : (s.bd b).kind = .static
      · rw [if_pos hst, List.mem_append, List.mem_singleton, B.stat]
        constructor
        · rintro (⟨h1, h2⟩ | rfl)
          · exact ⟨Or.inl h1, h2⟩
          · exact ⟨Or.inr rfl, hst⟩
        · rintro ⟨h1 | h1, h2⟩
          · exact Or.inl ⟨h1, h2⟩
          · exact Or.inr h1
      · rw [if_neg hst, B.stat]
        constructor
        · rintro ⟨h1, h2⟩; exact ⟨Or.inl h1, h2⟩
        · rintro ⟨h1 | h1, h2⟩
          · exact ⟨h1, h2⟩
          · rw [h1] at h2; exact absurd h2 hst
  · have S := I.shapes
    have hd : s'.dynIdx = s.dynIdx := by rw [e1]
    have hd' : s'.statIdx = s.statIdx := by rw [e1]
    have hx := fun c => (hsame c).2.2.2.2.2.1
    refine ⟨by rw [hd]; exact S.dynN, by rw [hd']; exact S.statN, ?_, ?_, ?_, ?_, ?_, ?_, ?_⟩
    · intro y; rw [hd, hsh, hfz]; exact S.dyn y
    · intro y; rw [hd', hsh, hfz]; exact S.stat y
    · intro c y; rw [hx, hsh]; exact S.att c y
    · intro c; rw [hx]; exact S.attN c
    · intro y; rw [hsh, hx]; exact S.own y
    · intro c y; rw [hofs, hx, hsh]; exact S.full c y
    · intro y; rw [hsh, hk, hsp]; exact fun h1 h2 => Or.inl (S.home y h1 h2)
  · have J := I.joints
    have hcn : s'.cn = s.cn := by rw [e1]
    have hd : s'.cons = s.cons := by rw [e1]
    have hx := fun c => (hsame c).2.2.2.2.1
    refine ⟨by rw [hd]; exact J.nodup, ?_, ?_, ?_, ?_, ?_, ?_⟩
    · intro c; rw [hd, hcn, hofs, owner_congr hk]; exact J.mem c
    · intro c q; rw [hx, hcn]; exact J.list c q
    · intro c; rw [hx]; exact J.listN c
    · intro c; rw [hcn]; exact J.ne c
    · intro c; rw [hcn, hk, hk, hsp, hsp]
      intro h
      obtain ⟨h1, h2⟩ := J.home c h
      exact ⟨fun q => Or.inl (h1 q), fun q => Or.inl (h2 q)⟩
    · intro c; rw [hcn]
      intro h
      obtain ⟨g1, g2⟩ := J.group c h
      exact ⟨g1.congr hr hk, g2.congr hr hk⟩
  · exact I.arbs.congr hk hr (fun c => (hsame c).2.2.2.1) hsh (fun r => by rw [e1]; exact ⟨rfl, rfl, rfl, rfl⟩) (by rw [e1]) (by rw [e1]) (by rw [e1]) (by rw [e1])
  · intro c; rw [hk, (hsame c).2.2.2.2.2.2]; exact G.kin c
  · intro c; rw [hr]; exact id

/-! ### Removing a body -/

/-- Nothing that is in the space hangs on the body. -/
structure BareBody (s : St K) (b : Nat) : Prop where
  shapes : ∀ x, (s.sh x).body = b → (s.sh x).space = false
  cons : (s.bd b).cons = []

theorem removeBody_good {s : St K} {b : Nat} (G : Good s) (hb : (s.bd b).space = true) (hbare : (s.bd b).kind ≠ .static → BareBody s b) :
    ∃ s', removeBody s b = some s' ∧ Good s' ∧ (∀ c, (s'.bd c).space = true ↔ ((s.bd c).space = true ∧ c ≠ b)) ∧ s'.evs = s.evs := by
  obtain ⟨s1, e1, H1, w1⟩ := activate_ok G.ok b
  have G1 := G.woken H1 w1
  have I := G1.inv
  have q := w1.quiet
  have hroot : (s1.bd b).root = none := w1.awakeB G.inv
  set s' : St K := (if (s1.bd b).kind = Kind.static then { s1 with stat := s1.stat.erase b } else { s1 with dyn := s1.dyn.erase b }).setB b fun d => { d with space := false } with hs'
  have hbd : ∀ c, s'.bd c = if c = b then { s1.bd b with space := false } else s1.bd c := by
    intro c; by_cases hst : (s1.bd b).kind = .static <;> simp only [hs', St.setB, hst, if_true, if_false]
  have hsame : ∀ c, (s'.bd c).kind = (s1.bd c).kind ∧ (s'.bd c).root = (s1.bd c).root ∧ (s'.bd c).next = (s1.bd c).next ∧ (s'.bd c).arbs = (s1.bd c).arbs ∧
      (s'.bd c).cons = (s1.bd c).cons ∧ (s'.bd c).shapes = (s1.bd c).shapes ∧ (s'.bd c).idle = (s1.bd c).idle := by
    intro c; rw [hbd]; split
    · rename_i e; subst e; exact ⟨rfl, rfl, rfl, rfl, rfl, rfl, rfl⟩
    · exact ⟨rfl, rfl, rfl, rfl, rfl, rfl, rfl⟩
  have hsp : ∀ c, (s'.bd c).space = true ↔ ((s1.bd c).space = true ∧ c ≠ b) := by
    intro c; rw [hbd]; split
    · rename_i e; simp [e]
    · rename_i e; simp [e]
  have hdyn : s'.dyn = if (s1.bd b).kind = .static then s1.dyn else s1.dyn.erase b := by
    by_cases hst : (s1.bd b).kind = .static <;> simp only [hs', St.setB, hst, if_true, if_false]
  have hstat : s'.stat = if (s1.bd b).kind = .static then s1.stat.erase b else s1.stat := by
    by_cases hst : (s1.bd b).kind = .static <;> simp only [hs', St.setB, hst, if_true, if_false]
  have er : s' = { s1 with bd := s'.bd, dyn := s'.dyn, stat := s'.stat } := by
    by_cases hst : (s1.bd b).kind = .static <;> simp only [hs', St.setB, hst, if_true, if_false]
  have hk := fun c => (hsame c).1
  have hr := fun c => (hsame c).2.1
  have hfz : ∀ c, frozen s' [] c ↔ frozen s1 [] c := frozen_congr hk hr
  have hofs : ∀ c, off s' [] c ↔ off s1 [] c := off_congr hr
  have hsh : s'.sh = s1.sh := by rw [er]
  have hsl : s'.sleeping = s1.sleeping := by rw [er]
  have hbare1 : (s1.bd b).kind ≠ .static → BareBody s1 b := by
    intro h
    rw [(q.bd b).1] at h
    have hb' := hbare h
    exact ⟨by rw [q.sh]; exact hb'.shapes, by rw [(q.bd b).2.2.2.1]; exact hb'.cons⟩
  have B := I.blists
  refine ⟨s', by simp only [removeBody, e1, hs'], ?_, ?_, ?_⟩
  · refine G1.update (s' := s') hsl ⟨?_, ?_, ?_, ?_, ?_⟩ (fun c => (hsame c).2.2.2.1) (by rw [er]) (by rw [er]) (by rw [er]) (by rw [er]) (by rw [er])
      (by rw [er]) (by rw [er]) (by rw [er]) ?_ ?_ (by rw [er]) (by rw [er])
    · have g := I.groups
      refine ⟨g.nodup, g.nodupT, ?_, ?_, by simp, ?_, ?_⟩
      · intro r hr'
        obtain ⟨l, h1, h2, h3⟩ := g.chain r hr'
        exact ⟨l, h1.congr (fun c => (hsame c).2.2.1), h2, fun c => by rw [hr c]; exact h3 c⟩
      · intro c r h1 h2
        rw [hr] at h2
        obtain ⟨a1, a2, a3⟩ := g.root c r h1 h2
        exact ⟨a1, by rw [hk]; exact a2, (hsp c).2 ⟨a3, by rintro rfl; rw [hroot] at h2; cases h2⟩⟩
      · intro c; rw [hr, (hsame c).2.2.1]; exact g.next c
      · intro c hc
        have hnb : s'.nb = s1.nb := by rw [er]
        rw [hnb]
        exact g.nb c ((hsp c).1 hc).1
    · refine ⟨?_, ?_, ?_, ?_⟩
      · rw [hdyn]; split
        · exact B.dynN
        · exact B.dynN.erase b
      · rw [hstat]; split
        · exact B.statN.erase b
        · exact B.statN
      · intro c
        rw [hk, hofs, hsp, hdyn]
        by_cases hst : (s1.bd b).kind = .static
        · rw [if_pos hst, B.dyn]
          constructor
          · rintro ⟨h1, h2, h3⟩; exact ⟨⟨h1, by rintro rfl; exact h2 hst⟩, h2, h3⟩
          · rintro ⟨⟨h1, _⟩, h2, h3⟩; exact ⟨h1, h2, h3⟩
        · rw [if_neg hst, B.dynN.mem_erase_iff, B.dyn]
          tauto
      · intro c
        rw [hk, hsp, hstat]
        by_cases hst : (s1.bd b).kind = .static
        · rw [if_pos hst, B.statN.mem_erase_iff, B.stat]; tauto
        · rw [if_neg hst, B.stat]
          constructor
          · rintro ⟨h1, h2⟩; exact ⟨⟨h1, by rintro rfl; exact hst h2⟩, h2⟩
          · rintro ⟨⟨h1, _⟩, h2⟩; exact ⟨h1, h2⟩
    · have S := I.shapes
      have hd : s'.dynIdx = s1.dynIdx := by rw [er]
      have hd' : s'.statIdx = s1.statIdx := by rw [er]
      have hx := fun c => (hsame c).2.2.2.2.2.1
      refine ⟨by rw [hd]; exact S.dynN, by rw [hd']; exact S.statN, ?_, ?_, ?_, ?_, ?_, ?_, ?_⟩
      · intro y; rw [hd, hsh, hfz]; exact S.dyn y
      · intro y; rw [hd', hsh, hfz]; exact S.stat y
      · intro c y; rw [hx, hsh]; exact S.att c y
      · intro c; rw [hx]; exact S.attN c
      · intro y; rw [hsh, hx]; exact S.own y
      · intro c y; rw [hofs, hx, hsh]; exact S.full c y
      · intro y; rw [hsh, hk, hsp]
        intro h1 h2
        refine ⟨S.home y h1 h2, ?_⟩
        intro e
        rw [e] at h2
        have := (hbare1 h2).shapes y e
        rw [h1] at this; cases this
    · have J := I.joints
      have hcn : s'.cn = s1.cn := by rw [er]
      have hd : s'.cons = s1.cons := by rw [er]
      have hx := fun c => (hsame c).2.2.2.2.1
      refine ⟨by rw [hd]; exact J.nodup, ?_, ?_, ?_, ?_, ?_, ?_⟩
      · intro c; rw [hd, hcn, hofs, owner_congr hk]; exact J.mem c
      · intro c q; rw [hx, hcn]; exact J.list c q
      · intro c; rw [hx]; exact J.listN c
      · intro c; rw [hcn]; exact J.ne c
      · intro c; rw [hcn, hk, hk, hsp, hsp]
        intro h
        obtain ⟨h1, h2⟩ := J.home c h
        have hno : ∀ d, ((s1.cn c).a = d ∨ (s1.cn c).b = d) → (s1.bd d).kind ≠ .static → d ≠ b := by
          intro d ho hkd he
          have := (J.list d c).2 ⟨h, ho⟩
          rw [he] at this hkd
          rw [(hbare1 hkd).cons] at this
          simp at this
        exact ⟨fun q => ⟨h1 q, hno _ (Or.inl rfl) q⟩, fun q => ⟨h2 q, hno _ (Or.inr rfl) q⟩⟩
      · intro c; rw [hcn]
        intro h
        obtain ⟨g1, g2⟩ := J.group c h
        exact ⟨g1.congr hr hk, g2.congr hr hk⟩
    · exact I.arbs.congr hk hr (fun c => (hsame c).2.2.2.1) hsh (fun r => by rw [er]; exact ⟨rfl, rfl, rfl, rfl⟩) (by rw [er]) (by rw [er]) (by rw [er]) (by rw [er])
    · intro c; rw [hk, (hsame c).2.2.2.2.2.2]; exact G1.kin c
    · intro c; rw [hr]; exact id
  · intro c; rw [hsp, (q.bd c).2.2.2.2]
  · rw [er, ← q.evs]

end Sp
end Cm
