import Verif.Proofs.SpaceOps

/-! # Adding shapes, adding and removing joints -/
set_option linter.unusedSectionVars false
set_option linter.unusedSimpArgs false
set_option linter.unusedVariables false
set_option linter.unusedTactic false
set_option linter.unreachableTactic false

namespace Cm
namespace Sp
open Spec
variable {K : Type} [Zero K] [LT K] [DecidableRel (α := K) (· < ·)]

theorem twice_same (s : St K) (a b : Nat) (f : List Nat → List Nat) (d : Nat) :
    let s' := (s.setB a fun d => { d with cons := f d.cons }).setB b fun d => { d with cons := f d.cons }
    (s'.bd d).kind = (s.bd d).kind ∧ (s'.bd d).root = (s.bd d).root ∧ (s'.bd d).next = (s.bd d).next ∧ (s'.bd d).arbs = (s.bd d).arbs ∧
      (s'.bd d).space = (s.bd d).space ∧ (s'.bd d).shapes = (s.bd d).shapes ∧ (s'.bd d).idle = (s.bd d).idle := by
  have h1 : ∀ (s : St K) (a d : Nat), let s' := s.setB a fun d => { d with cons := f d.cons }
    (s'.bd d).kind = (s.bd d).kind ∧ (s'.bd d).root = (s.bd d).root ∧ (s'.bd d).next = (s.bd d).next ∧ (s'.bd d).arbs = (s.bd d).arbs ∧
      (s'.bd d).space = (s.bd d).space ∧ (s'.bd d).shapes = (s.bd d).shapes ∧ (s'.bd d).idle = (s.bd d).idle := by
    intro s a d
    simp only [St.setB]
    split
    · rename_i e; subst e; exact ⟨rfl, rfl, rfl, rfl, rfl, rfl, rfl⟩
    · exact ⟨rfl, rfl, rfl, rfl, rfl, rfl, rfl⟩
  intro s'
  obtain ⟨a1, a2, a3, a4, a5, a6, a7⟩ := h1 s a d
  obtain ⟨b1, b2, b3, b4, b5, b6, b7⟩ := h1 (s.setB a fun d => { d with cons := f d.cons }) b d
  exact ⟨b1.trans a1, b2.trans a2, b3.trans a3, b4.trans a4, b5.trans a5, b6.trans a6, b7.trans a7⟩

theorem twice_cons (s : St K) {a b : Nat} (hne : a ≠ b) (f : List Nat → List Nat) (d : Nat) :
    (((s.setB a fun d => { d with cons := f d.cons }).setB b fun d => { d with cons := f d.cons }).bd d).cons =
      if a = d ∨ b = d then f (s.bd d).cons else (s.bd d).cons := by
  simp only [St.setB]
  by_cases h1 : d = b
  · rw [if_pos h1, if_pos (Or.inr h1.symm)]
    rw [if_neg (fun e => hne (by rw [e])), h1]
  · rw [if_neg h1]
    by_cases h2 : d = a
    · rw [if_pos h2, if_pos (Or.inl h2.symm), h2]
    · rw [if_neg h2, if_neg]; rintro (rfl | rfl)
      · exact h2 rfl
      · exact h1 rfl

/-! ### Adding a shape -/

/-- The shape is attached to its body but not in the space; a body that is not static is in the space. -/
structure AddShapeOk (s : St K) (x : Nat) : Prop where
  att : x ∈ (s.bd (s.sh x).body).shapes
  out : (s.sh x).space = false
  home : (s.bd (s.sh x).body).kind ≠ .static → (s.bd (s.sh x).body).space = true

theorem AddShapeOk.awake {s : St K} {x : Nat} (G : Good s) (h : AddShapeOk s x) : (s.bd (s.sh x).body).root = none := by
  by_contra hc
  have := G.inv.shapes.full _ x (off_nil.2 hc) h.att
  rw [h.out] at this; cases this

/-- The index that gets the shape. -/
def putShape (s : St K) (x : Nat) : St K :=
  St.setS (if (s.bd (s.sh x).body).kind = Kind.static then { s with statIdx := s.statIdx ++ [x] } else { s with dynIdx := s.dynIdx ++ [x] }) x
    fun d => { d with space := true }

theorem putShape_good {s : St K} {x : Nat} (G : Good s) (h : AddShapeOk s x) : Good (putShape s x) := by
  have I := G.inv
  have hroot := h.awake G
  set s' := putShape s x with hs'
  have er : s' = { s with sh := s'.sh, dynIdx := s'.dynIdx, statIdx := s'.statIdx } := by
    by_cases hst : (s.bd (s.sh x).body).kind = .static <;> simp only [hs', putShape, St.setS, hst, if_true, if_false]
  have hsh : ∀ y, s'.sh y = if y = x then { s.sh x with space := true } else s.sh y := by
    intro y; by_cases hst : (s.bd (s.sh x).body).kind = .static <;> simp only [hs', putShape, St.setS, hst, if_true, if_false]
  have hdyn : s'.dynIdx = if (s.bd (s.sh x).body).kind = .static then s.dynIdx else s.dynIdx ++ [x] := by
    by_cases hst : (s.bd (s.sh x).body).kind = .static <;> simp only [hs', putShape, St.setS, hst, if_true, if_false]
  have hstat : s'.statIdx = if (s.bd (s.sh x).body).kind = .static then s.statIdx ++ [x] else s.statIdx := by
    by_cases hst : (s.bd (s.sh x).body).kind = .static <;> simp only [hs', putShape, St.setS, hst, if_true, if_false]
  have hbd : s'.bd = s.bd := by rw [er]
  have hbody : ∀ y, (s'.sh y).body = (s.sh y).body := by
    intro y; rw [hsh]; split
    · rename_i e; rw [e]
    · rfl
  have hsp : ∀ y, (s'.sh y).space = true ↔ ((s.sh y).space = true ∨ y = x) := by
    intro y; rw [hsh]; split
    · rename_i e; simp [e]
    · rename_i e; simp [e]
  have hk : ∀ c, (s'.bd c).kind = (s.bd c).kind := by intro c; rw [hbd]
  have hr : ∀ c, (s'.bd c).root = (s.bd c).root := by intro c; rw [hbd]
  have hfz : ∀ c, frozen s' [] c ↔ frozen s [] c := frozen_congr hk hr
  have hofs : ∀ c, off s' [] c ↔ off s [] c := off_congr hr
  have hfx : frozen s [] (s.sh x).body ↔ (s.bd (s.sh x).body).kind = .static := by
    simp only [frozen, off_nil, hroot]; simp
  have S := I.shapes
  have hxn : x ∉ s.dynIdx ∧ x ∉ s.statIdx := by
    constructor
    · intro hc; have := ((S.dyn x).1 hc).1; rw [h.out] at this; cases this
    · intro hc; have := ((S.stat x).1 hc).1; rw [h.out] at this; cases this
  have happ : ∀ l : List Nat, l.Nodup → x ∉ l → (l ++ [x]).Nodup := by
    intro l h1 h2
    rw [List.nodup_append]
    exact ⟨h1, by simp, by rintro y hy z hz rfl; rw [List.mem_singleton] at hz; subst hz; exact h2 hy⟩
  refine G.update (s' := s') (sl := s.sleeping) (by rw [er]) ⟨?_, ?_, ?_, ?_, ?_⟩ (fun c => by rw [hbd]) (by rw [er]) (by rw [er]) (by rw [er]) (by rw [er]) (by rw [er])
      (by rw [er]) (by rw [er]) (by rw [er]) ?_ ?_ (by rw [er]) (by rw [er])
  · exact I.groups.congr hk hr (fun c => by rw [hbd]) (fun c => by rw [hbd]) (by rw [er])
  · exact I.blists.congr hk hr (fun c => by rw [hbd]) (by rw [er]) (by rw [er])
  · refine ⟨?_, ?_, ?_, ?_, ?_, ?_, ?_, ?_, ?_⟩
    · rw [hdyn]; split
      · exact S.dynN
      · exact happ _ S.dynN hxn.1
    · rw [hstat]; split
      · exact happ _ S.statN hxn.2
      · exact S.statN
    · intro y
      rw [hsp, hbody, hfz, hdyn]
      by_cases hst : (s.bd (s.sh x).body).kind = .static
      · rw [if_pos hst, S.dyn]
        constructor
        · rintro ⟨h1, h2⟩; exact ⟨Or.inl h1, h2⟩
        · rintro ⟨h1 | rfl, h2⟩
          · exact ⟨h1, h2⟩
          · exact absurd (hfx.2 hst) h2
      · rw [if_neg hst, List.mem_append, List.mem_singleton, S.dyn]
        constructor
        · rintro (⟨h1, h2⟩ | rfl)
          · exact ⟨Or.inl h1, h2⟩
          · exact ⟨Or.inr rfl, fun hc => hst (hfx.1 hc)⟩
        · rintro ⟨h1 | h1, h2⟩
          · exact Or.inl ⟨h1, h2⟩
          · exact Or.inr h1
    · intro y
      rw [hsp, hbody, hfz, hstat]
      by_cases hst : (s.bd (s.sh x).body).kind = .static
      · rw [if_pos hst, List.mem_append, List.mem_singleton, S.stat]
        constructor
        · rintro (⟨h1, h2⟩ | rfl)
          · exact ⟨Or.inl h1, h2⟩
          · exact ⟨Or.inr rfl, hfx.2 hst⟩
        · rintro ⟨h1 | h1, h2⟩
          · exact Or.inl ⟨h1, h2⟩
          · exact Or.inr h1
      · rw [if_neg hst, S.stat]
        constructor
        · rintro ⟨h1, h2⟩; exact ⟨Or.inl h1, h2⟩
        · rintro ⟨h1 | rfl, h2⟩
          · exact ⟨h1, h2⟩
          · exact absurd (hfx.1 h2) hst
    · intro c y; rw [hbd, hbody]; exact S.att c y
    · intro c; rw [hbd]; exact S.attN c
    · intro y hy
      rw [hbd, hbody]
      rcases (hsp y).1 hy with h1 | rfl
      · exact S.own y h1
      · exact h.att
    · intro c y; rw [hofs, hbd, hsp]; exact fun h1 h2 => Or.inl (S.full c y h1 h2)
    · intro y hy
      rw [hbd, hbody]
      rcases (hsp y).1 hy with h1 | rfl
      · exact S.home y h1
      · exact h.home
  · exact I.joints.congr hk hr (fun c => by rw [hbd]) (fun c => by rw [hbd]) (by rw [er]) (by rw [er])
  · have A := I.arbs
    have har : s'.ar = s.ar := by rw [er]
    have hca : s'.cached = s.cached := by rw [er]
    have hab : s'.arbiters = s.arbiters := by rw [er]
    have hfr : s'.fresh = s.fresh := by rw [er]
    have hpo : s'.pool = s.pool := by rw [er]
    have ht : ∀ r, thr s' r ↔ thr s r := by intro r; simp only [thr, hbd, har]
    have hl : ∀ r, live s' r ↔ live s r := by intro r; simp only [live, hca, ht]
    have how : ∀ p q, owner s' p q = owner s p q := owner_congr hk
    refine ⟨by rw [hab]; exact A.arbN, by rw [hca]; exact A.cachedN, A.pendN, ?_, ?_, ?_, ?_, ?_, ?_, ?_, ?_, ?_, ?_⟩
    · intro r
      rw [hab, A.arb, ht, hofs, how, har]
    · intro c r; rw [hbd, ht, har]; exact A.list c r
    · intro c; rw [hbd]; exact A.listN c
    · simp
    · intro r; rw [ht, hofs, how, hca, har]; exact A.cach r
    · intro r; rw [hl, har]; exact A.ne r
    · intro r hr'
      obtain ⟨a1, a2, a3, a4⟩ := A.shp r ((hl r).1 hr')
      rw [har, hbody, hbody, hsp, hsp]
      exact ⟨a1, a2, Or.inl a3, Or.inl a4⟩
    · intro r r'; rw [hl, hl, har]; exact A.uniq r r'
    · intro r; rw [ht, har]
      intro h'
      obtain ⟨g1, g2⟩ := A.group r h'
      exact ⟨g1.congr hr hk, g2.congr hr hk⟩
    · intro r; rw [hl, hfr, hpo]; exact A.ids r
  · intro c; rw [hbd]; exact G.kin c
  · intro c; rw [hr]; exact id

theorem addShape_good {s : St K} {x : Nat} (G : Good s) (h : AddShapeOk s x) :
    ∃ s', addShape s x = some s' ∧ Good s' ∧ (∀ y, (s'.sh y).body = (s.sh y).body ∧ ((s'.sh y).space = true ↔ ((s.sh y).space = true ∨ y = x))) ∧
      (∀ c, (s'.bd c).kind = (s.bd c).kind ∧ (s'.bd c).shapes = (s.bd c).shapes ∧ (s'.bd c).space = (s.bd c).space) ∧ s'.evs = s.evs := by
  unfold addShape
  by_cases hst : (s.bd (s.sh x).body).kind = .static
  · rw [if_pos hst]
    have e : (St.setS { s with statIdx := s.statIdx ++ [x] } x fun d => { d with space := true }) = putShape s x := by
      simp only [putShape, hst, if_true]
    refine ⟨_, rfl, by rw [e]; exact putShape_good G h, ?_, fun c => ⟨rfl, rfl, rfl⟩, rfl⟩
    intro y
    simp only [St.setS]
    by_cases hy : y = x
    · subst hy; simp
    · simp [hy]
  · rw [if_neg hst]
    obtain ⟨s1, e1, H1, w1⟩ := activate_ok G.ok (s.sh x).body
    have G1 := G.woken H1 w1
    have q := w1.quiet
    rw [e1]
    have e : (St.setS { s1 with dynIdx := s1.dynIdx ++ [x] } x fun d => { d with space := true }) = putShape s1 x := by
      have : ¬ (s1.bd (s1.sh x).body).kind = .static := by rw [q.sh, (q.bd _).1]; exact hst
      simp only [putShape, this, if_false]
    refine ⟨_, rfl, ?_, ?_, ?_, ?_⟩
    · rw [e]
      apply putShape_good G1
      exact ⟨by rw [q.sh, (q.bd _).2.1]; exact h.att, by rw [q.sh]; exact h.out, by rw [q.sh, (q.bd _).1, (q.bd _).2.2.2.2]; exact h.home⟩
    · intro y
      simp only [St.setS, q.sh]
      by_cases hy : y = x
      · subst hy; simp
      · simp [hy]
    · intro c
      obtain ⟨a1, a2, a3, a4, a5⟩ := q.bd c
      exact ⟨a1, a2, a5⟩
    · exact q.evs

/-! ### Joints -/

/-- The joint is not in the space, its two bodies are different, and those that are not static are in the space. -/
structure AddJointOk (s : St K) (c : Nat) : Prop where
  out : (s.cn c).space = false
  ne : (s.cn c).a ≠ (s.cn c).b
  homeA : (s.bd (s.cn c).a).kind ≠ .static → (s.bd (s.cn c).a).space = true
  homeB : (s.bd (s.cn c).b).kind ≠ .static → (s.bd (s.cn c).b).space = true

theorem addConstraint_good {s : St K} {c : Nat} (G : Good s) (h : AddJointOk s c) :
    ∃ s', addConstraint s c = some s' ∧ Good s' ∧ (∀ d, (s'.cn d).a = (s.cn d).a ∧ (s'.cn d).b = (s.cn d).b ∧ ((s'.cn d).space = true ↔ ((s.cn d).space = true ∨ d = c))) ∧
      s'.evs = s.evs ∧ (s'.bd (s.cn c).a).root = none ∧ (s'.bd (s.cn c).b).root = none := by
  obtain ⟨s1, e1, H1, w1⟩ := activate_ok G.ok (s.cn c).a
  have G1 := G.woken H1 w1
  have ra1 : (s1.bd (s.cn c).a).root = none := w1.awakeB G.inv
  obtain ⟨s2, e2, H2, w2⟩ := activate_ok G1.ok (s.cn c).b
  have G2 := G1.woken H2 w2
  have rb : (s2.bd (s.cn c).b).root = none := w2.awakeB G1.inv
  have ra : (s2.bd (s.cn c).a).root = none := by
    rw [w2.root]; split
    · rfl
    · exact ra1
  have q := w1.quiet.trans w2.quiet
  have I := G2.inv
  have hcn2 : s2.cn = s.cn := q.cn
  set a := (s.cn c).a with ha
  set b := (s.cn c).b with hb
  set s' : St K := ((({ s2 with cons := s2.cons ++ [c] } : St K).setB a fun d => { d with cons := c :: d.cons }).setB b fun d => { d with cons := c :: d.cons }).setC c fun d => { d with space := true } with hs'
  have er : s' = { s2 with bd := s'.bd, cn := s'.cn, cons := s2.cons ++ [c] } := rfl
  have hcn : ∀ d, s'.cn d = if d = c then { s2.cn c with space := true } else s2.cn d := fun d => rfl
  have hsame : ∀ d, (s'.bd d).kind = (s2.bd d).kind ∧ (s'.bd d).root = (s2.bd d).root ∧ (s'.bd d).next = (s2.bd d).next ∧ (s'.bd d).arbs = (s2.bd d).arbs ∧
      (s'.bd d).space = (s2.bd d).space ∧ (s'.bd d).shapes = (s2.bd d).shapes ∧ (s'.bd d).idle = (s2.bd d).idle := by
    exact twice_same _ a b (fun l => c :: l)
  have hcons : ∀ d, (s'.bd d).cons = if a = d ∨ b = d then c :: (s2.bd d).cons else (s2.bd d).cons := by
    exact twice_cons _ h.ne (fun l => c :: l)
  have hsp : ∀ d, (s'.cn d).space = true ↔ ((s2.cn d).space = true ∨ d = c) := by
    intro d; rw [hcn]; split
    · rename_i e; simp [e]
    · rename_i e; simp [e]
  have hends : ∀ d, (s'.cn d).a = (s2.cn d).a ∧ (s'.cn d).b = (s2.cn d).b := by
    intro d; rw [hcn]; split
    · rename_i e; subst e; exact ⟨rfl, rfl⟩
    · exact ⟨rfl, rfl⟩
  have hca : (s2.cn c).a = a ∧ (s2.cn c).b = b := by rw [hcn2]; exact ⟨rfl, rfl⟩
  have hout : (s2.cn c).space = false := by rw [hcn2]; exact h.out
  have hk := fun d => (hsame d).1
  have hr := fun d => (hsame d).2.1
  have hofs : ∀ d, off s' [] d ↔ off s2 [] d := off_congr hr
  have how : ∀ p q, owner s' p q = owner s2 p q := owner_congr hk
  have J := I.joints
  have hcnot : c ∉ s2.cons := by intro hc; have := ((J.mem c).1 hc).1; rw [hout] at this; cases this
  have hclist : ∀ d, c ∉ (s2.bd d).cons := by intro d hc; have := ((J.list d c).1 hc).1; rw [hout] at this; cases this
  refine ⟨s', by simp only [addConstraint, ← ha, ← hb, e1, e2, hs'], ?_, ?_, ?_, ?_, ?_⟩
  · refine G2.update (s' := s') (sl := s2.sleeping) (by rw [er]) ⟨?_, ?_, ?_, ?_, ?_⟩ (fun d => (hsame d).2.2.2.1) (by rw [er]) (by rw [er]) (by rw [er]) (by rw [er]) (by rw [er])
      (by rw [er]) (by rw [er]) (by rw [er]) ?_ ?_ (by rw [er]) (by rw [er])
    · exact I.groups.congr hk hr (fun d => (hsame d).2.2.1) (fun d => (hsame d).2.2.2.2.1) (by rw [er])
    · exact I.blists.congr hk hr (fun d => (hsame d).2.2.2.2.1) (by rw [er]) (by rw [er])
    · exact I.shapes.congr hk hr (fun d => (hsame d).2.2.2.2.1) (fun d => (hsame d).2.2.2.2.2.1) (by rw [er]) (by rw [er]) (by rw [er])
    · refine ⟨?_, ?_, ?_, ?_, ?_, ?_, ?_⟩
      · show (s2.cons ++ [c]).Nodup
        rw [List.nodup_append]
        exact ⟨J.nodup, by simp, by rintro y hy z hz rfl; rw [List.mem_singleton] at hz; subst hz; exact hcnot hy⟩
      · intro d
        show d ∈ s2.cons ++ [c] ↔ _
        rw [hsp, hofs, how, (hends d).1, (hends d).2, List.mem_append, List.mem_singleton, J.mem]
        constructor
        · rintro (⟨h1, h2⟩ | rfl)
          · exact ⟨Or.inl h1, h2⟩
          · refine ⟨Or.inr rfl, ?_⟩
            rw [off_nil, not_not, hca.1, hca.2]
            unfold owner; split
            · exact rb
            · exact ra
        · rintro ⟨h1 | h1, h2⟩
          · exact Or.inl ⟨h1, h2⟩
          · exact Or.inr h1
      · intro d e
        rw [hcons, hsp, (hends e).1, (hends e).2]
        by_cases hd : a = d ∨ b = d
        · rw [if_pos hd, List.mem_cons, J.list]
          constructor
          · rintro (rfl | ⟨h1, h2⟩)
            · rw [hca.1, hca.2]; exact ⟨Or.inr rfl, hd⟩
            · exact ⟨Or.inl h1, h2⟩
          · rintro ⟨h1 | h1, h2⟩
            · exact Or.inr ⟨h1, h2⟩
            · exact Or.inl h1
        · rw [if_neg hd, J.list]
          constructor
          · rintro ⟨h1, h2⟩; exact ⟨Or.inl h1, h2⟩
          · rintro ⟨h1 | rfl, h2⟩
            · exact ⟨h1, h2⟩
            · rw [hca.1, hca.2] at h2; exact absurd h2 hd
      · intro d
        rw [hcons]; split
        · exact List.nodup_cons.2 ⟨hclist d, J.listN d⟩
        · exact J.listN d
      · intro d hd
        rw [(hends d).1, (hends d).2]
        rcases (hsp d).1 hd with h1 | rfl
        · exact J.ne d h1
        · rw [hca.1, hca.2]; exact h.ne
      · intro d hd
        rw [(hends d).1, (hends d).2, hk, hk, (hsame _).2.2.2.2.1, (hsame _).2.2.2.2.1]
        rcases (hsp d).1 hd with h1 | rfl
        · exact J.home d h1
        · rw [hca.1, hca.2, (q.bd _).1, (q.bd _).1, (q.bd _).2.2.2.2, (q.bd _).2.2.2.2]
          exact ⟨h.homeA, h.homeB⟩
      · intro d hd
        rw [(hends d).1, (hends d).2]
        rcases (hsp d).1 hd with h1 | rfl
        · obtain ⟨g1, g2⟩ := J.group d h1
          exact ⟨g1.congr hr hk, g2.congr hr hk⟩
        · rw [hca.1, hca.2]
          constructor
          · intro g _ h2; rw [hr, ra] at h2; cases h2
          · intro g _ h2; rw [hr, rb] at h2; cases h2
    · exact I.arbs.congr hk hr (fun d => (hsame d).2.2.2.1) (by rw [er]) (fun r => by rw [er]; exact ⟨rfl, rfl, rfl, rfl⟩) (by rw [er]) (by rw [er]) (by rw [er]) (by rw [er])
    · intro d; rw [hk, (hsame d).2.2.2.2.2.2]; exact G2.kin d
    · intro d; rw [hr]; exact id
  · intro d
    rw [(hends d).1, (hends d).2, hsp, hcn2]; exact ⟨rfl, rfl, Iff.rfl⟩
  · show s2.evs = s.evs
    exact q.evs
  · rw [hr]; exact ra
  · rw [hr]; exact rb

theorem removeConstraint_good {s : St K} {c : Nat} (G : Good s) (hin : (s.cn c).space = true) :
    ∃ s', removeConstraint s c = some s' ∧ Good s' ∧ (∀ d, (s'.cn d).a = (s.cn d).a ∧ (s'.cn d).b = (s.cn d).b ∧ ((s'.cn d).space = true ↔ ((s.cn d).space = true ∧ d ≠ c))) ∧
      s'.evs = s.evs ∧ (s'.bd (s.cn c).a).root = none ∧ (s'.bd (s.cn c).b).root = none := by
  obtain ⟨s1, e1, H1, w1⟩ := activate_ok G.ok (s.cn c).a
  have G1 := G.woken H1 w1
  have ra1 : (s1.bd (s.cn c).a).root = none := w1.awakeB G.inv
  obtain ⟨s2, e2, H2, w2⟩ := activate_ok G1.ok (s.cn c).b
  have G2 := G1.woken H2 w2
  have rb : (s2.bd (s.cn c).b).root = none := w2.awakeB G1.inv
  have ra : (s2.bd (s.cn c).a).root = none := by
    rw [w2.root]; split
    · rfl
    · exact ra1
  have q := w1.quiet.trans w2.quiet
  have I := G2.inv
  have J := I.joints
  have hcn2 : s2.cn = s.cn := q.cn
  have hin2 : (s2.cn c).space = true := by rw [hcn2]; exact hin
  have hne : (s2.cn c).a ≠ (s2.cn c).b := J.ne c hin2
  rw [hcn2] at hne
  set a := (s.cn c).a with ha
  set b := (s.cn c).b with hb
  set s' : St K := ((({ s2 with cons := s2.cons.erase c } : St K).setB a fun d => { d with cons := d.cons.erase c }).setB b fun d => { d with cons := d.cons.erase c }).setC c fun d => { d with space := false } with hs'
  have er : s' = { s2 with bd := s'.bd, cn := s'.cn, cons := s2.cons.erase c } := rfl
  have hcn : ∀ d, s'.cn d = if d = c then { s2.cn c with space := false } else s2.cn d := fun d => rfl
  have hsame : ∀ d, (s'.bd d).kind = (s2.bd d).kind ∧ (s'.bd d).root = (s2.bd d).root ∧ (s'.bd d).next = (s2.bd d).next ∧ (s'.bd d).arbs = (s2.bd d).arbs ∧
      (s'.bd d).space = (s2.bd d).space ∧ (s'.bd d).shapes = (s2.bd d).shapes ∧ (s'.bd d).idle = (s2.bd d).idle := by
    exact twice_same _ a b (fun l => l.erase c)
  have hlistc : ∀ d, c ∈ (s2.bd d).cons ↔ (a = d ∨ b = d) := by
    intro d; rw [J.list, hcn2]; exact ⟨fun h => h.2, fun h => ⟨hin, h⟩⟩
  have hcons : ∀ d, (s'.bd d).cons = (s2.bd d).cons.erase c := by
    intro d
    refine (twice_cons _ hne (fun l => l.erase c) d).trans ?_
    split
    · rfl
    · rename_i e; rw [← hlistc] at e; exact (List.erase_of_not_mem e).symm
  have hsp : ∀ d, (s'.cn d).space = true ↔ ((s2.cn d).space = true ∧ d ≠ c) := by
    intro d; rw [hcn]; split
    · rename_i e; simp [e]
    · rename_i e; simp [e]
  have hends : ∀ d, (s'.cn d).a = (s2.cn d).a ∧ (s'.cn d).b = (s2.cn d).b := by
    intro d; rw [hcn]; split
    · rename_i e; subst e; exact ⟨rfl, rfl⟩
    · exact ⟨rfl, rfl⟩
  have hk := fun d => (hsame d).1
  have hr := fun d => (hsame d).2.1
  have hofs : ∀ d, off s' [] d ↔ off s2 [] d := off_congr hr
  have how : ∀ p q, owner s' p q = owner s2 p q := owner_congr hk
  refine ⟨s', ?_, ?_, ?_, ?_, ?_, ?_⟩
  · simp only [removeConstraint, ← ha, ← hb, e1, e2]
    rw [if_pos ⟨(hlistc a).2 (Or.inl rfl), (hlistc b).2 (Or.inr rfl)⟩]
  · refine G2.update (s' := s') (sl := s2.sleeping) (by rw [er]) ⟨?_, ?_, ?_, ?_, ?_⟩ (fun d => (hsame d).2.2.2.1) (by rw [er]) (by rw [er]) (by rw [er]) (by rw [er]) (by rw [er])
      (by rw [er]) (by rw [er]) (by rw [er]) ?_ ?_ (by rw [er]) (by rw [er])
    · exact I.groups.congr hk hr (fun d => (hsame d).2.2.1) (fun d => (hsame d).2.2.2.2.1) (by rw [er])
    · exact I.blists.congr hk hr (fun d => (hsame d).2.2.2.2.1) (by rw [er]) (by rw [er])
    · exact I.shapes.congr hk hr (fun d => (hsame d).2.2.2.2.1) (fun d => (hsame d).2.2.2.2.2.1) (by rw [er]) (by rw [er]) (by rw [er])
    · refine ⟨?_, ?_, ?_, ?_, ?_, ?_, ?_⟩
      · exact J.nodup.erase c
      · intro d
        show d ∈ s2.cons.erase c ↔ _
        rw [hsp, hofs, how, (hends d).1, (hends d).2, J.nodup.mem_erase_iff, J.mem]; tauto
      · intro d e
        rw [hcons, hsp, (hends e).1, (hends e).2, (J.listN d).mem_erase_iff, J.list]; tauto
      · intro d
        rw [hcons]; exact (J.listN d).erase c
      · intro d hd
        rw [(hends d).1, (hends d).2]
        exact J.ne d ((hsp d).1 hd).1
      · intro d hd
        rw [(hends d).1, (hends d).2, hk, hk, (hsame _).2.2.2.2.1, (hsame _).2.2.2.2.1]
        exact J.home d ((hsp d).1 hd).1
      · intro d hd
        rw [(hends d).1, (hends d).2]
        obtain ⟨g1, g2⟩ := J.group d ((hsp d).1 hd).1
        exact ⟨g1.congr hr hk, g2.congr hr hk⟩
    · exact I.arbs.congr hk hr (fun d => (hsame d).2.2.2.1) (by rw [er]) (fun r => by rw [er]; exact ⟨rfl, rfl, rfl, rfl⟩) (by rw [er]) (by rw [er]) (by rw [er]) (by rw [er])
    · intro d; rw [hk, (hsame d).2.2.2.2.2.2]; exact G2.kin d
    · intro d; rw [hr]; exact id
  · intro d
    rw [(hends d).1, (hends d).2, hsp, hcn2]; exact ⟨rfl, rfl, Iff.rfl⟩
  · show s2.evs = s.evs
    exact q.evs
  · rw [hr]; exact ra
  · rw [hr]; exact rb

end Sp
end Cm
