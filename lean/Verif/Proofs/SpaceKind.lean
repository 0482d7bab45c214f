import Verif.Proofs.SpaceOps2

/-! # Changing the type of a body -/
set_option linter.unusedSectionVars false
set_option linter.unusedSimpArgs false
set_option linter.unusedVariables false
set_option linter.unusedTactic false
set_option linter.unreachableTactic false

namespace Cm
namespace Sp
open Spec
variable {K : Type} [Zero K] [LT K] [DecidableRel (α := K) (· < ·)]

/-- What `SetType` may be called with: the body is awake, a body that is not in the space and static has nothing
hanging on it, all shapes of a body in the space are in the space too, and a static body in the space touches and holds
no sleeping body. -/
structure SetTypeOk (s : St K) (b : Nat) : Prop where
  awake : (s.bd b).root = none
  bare : (s.bd b).space = false → (s.bd b).kind = .static → BareBody s b
  full : (s.bd b).space = true → ∀ x ∈ (s.bd b).shapes, (s.sh x).space = true
  joints : (s.bd b).kind = .static → ∀ c, (s.cn c).space = true → ((s.cn c).a = b ∨ (s.cn c).b = b) → (s.bd (s.cn c).a).root = none ∧ (s.bd (s.cn c).b).root = none
  arbs : (s.bd b).kind = .static → ∀ r ∈ (s.bd b).arbs, (s.bd (s.ar r).a).root = none ∧ (s.bd (s.ar r).b).root = none

theorem Together.other {s : St K} {a b : Nat} (h : Together s [] a b) (hk : (s.bd b).kind ≠ .static) (hr : (s.bd b).root = none) : (s.bd a).root = none := by
  by_contra hc
  obtain ⟨g, hg⟩ := Option.ne_none_iff_exists'.1 hc
  rcases h g (by simp) hg with h1 | h1
  · exact hk h1
  · rw [hr] at h1; exact absurd h1.2 (by simp)

theorem SetTypeOk.joint {s : St K} {b : Nat} (G : Good s) (h : SetTypeOk s b) (c : Nat) (hc : (s.cn c).space = true) (he : (s.cn c).a = b ∨ (s.cn c).b = b) :
    (s.bd (s.cn c).a).root = none ∧ (s.bd (s.cn c).b).root = none := by
  by_cases hk : (s.bd b).kind = .static
  · exact h.joints hk c hc he
  · obtain ⟨g1, g2⟩ := G.inv.joints.group c hc
    rcases he with e | e
    · have h1 : (s.bd (s.cn c).a).root = none := by rw [e]; exact h.awake
      exact ⟨h1, g2.other (by rw [e]; exact hk) h1⟩
    · have h1 : (s.bd (s.cn c).b).root = none := by rw [e]; exact h.awake
      exact ⟨g1.other (by rw [e]; exact hk) h1, h1⟩

theorem SetTypeOk.arb {s : St K} {b : Nat} (G : Good s) (h : SetTypeOk s b) (r : Nat) (hc : thr s r) (he : (s.ar r).a = b ∨ (s.ar r).b = b) :
    (s.bd (s.ar r).a).root = none ∧ (s.bd (s.ar r).b).root = none := by
  by_cases hk : (s.bd b).kind = .static
  · exact h.arbs hk r ((G.inv.arbs.list b r).2 ⟨hc, he⟩)
  · obtain ⟨g1, g2⟩ := G.inv.arbs.group r hc
    rcases he with e | e
    · have h1 : (s.bd (s.ar r).a).root = none := by rw [e]; exact h.awake
      exact ⟨h1, g2.other (by rw [e]; exact hk) h1⟩
    · have h1 : (s.bd (s.ar r).b).root = none := by rw [e]; exact h.awake
      exact ⟨g1.other (by rw [e]; exact hk) h1, h1⟩

/-- Everything but the indexes and the lists of bodies after a change of type. -/
theorem kind_good {s s' : St K} {b : Nat} {k : Kind} (G : Good s) (h : SetTypeOk s b)
    (er : s' = { s with bd := s'.bd, dyn := s'.dyn, stat := s'.stat, dynIdx := s'.dynIdx, statIdx := s'.statIdx })
    (hkind : ∀ c, (s'.bd c).kind = if c = b then k else (s.bd c).kind)
    (hsame : ∀ c, (s'.bd c).root = (s.bd c).root ∧ (s'.bd c).next = (s.bd c).next ∧ (s'.bd c).arbs = (s.bd c).arbs ∧
      (s'.bd c).cons = (s.bd c).cons ∧ (s'.bd c).space = (s.bd c).space ∧ (s'.bd c).shapes = (s.bd c).shapes)
    (hidle : ∀ c, (s'.bd c).idle = 0 ∨ (c ≠ b ∧ (s'.bd c).idle = (s.bd c).idle))
    (hB : BLists s' [])
    (hdN : s'.dynIdx.Nodup) (hsN : s'.statIdx.Nodup)
    (hd : ∀ x, x ∈ s'.dynIdx ↔ ((s.sh x).space = true ∧ ¬ frozen s' [] (s.sh x).body))
    (hs : ∀ x, x ∈ s'.statIdx ↔ ((s.sh x).space = true ∧ frozen s' [] (s.sh x).body)) : Good s' := by
  have I := G.inv
  have hr := fun c => (hsame c).1
  have hsh : s'.sh = s.sh := by rw [er]
  have hcn : s'.cn = s.cn := by rw [er]
  have har : s'.ar = s.ar := by rw [er]
  have hofs : ∀ c, off s' [] c ↔ off s [] c := off_congr hr
  have hkne : ∀ c, c ≠ b → (s'.bd c).kind = (s.bd c).kind := by intro c hc; rw [hkind, if_neg hc]
  -- a link that has no sleeping end
  have howner : ∀ p q, ((p = b ∨ q = b) → (s.bd p).root = none ∧ (s.bd q).root = none) → (off s' [] (owner s' p q) ↔ off s [] (owner s p q)) := by
    intro p q hpq
    rw [hofs]
    by_cases hb : p = b ∨ q = b
    · obtain ⟨h1, h2⟩ := hpq hb
      have : ∀ t : St K, ¬ off s [] (owner t p q) := by
        intro t; rw [off_nil, not_not]; unfold owner; split <;> assumption
      exact iff_of_false (this _) (this _)
    · rw [not_or] at hb
      have : owner s' p q = owner s p q := by simp only [owner, hkne p hb.1]
      rw [this]
  have htog : ∀ p q, ((p = b ∨ q = b) → (s.bd p).root = none ∧ (s.bd q).root = none) → Together s [] p q → Together s' [] p q := by
    intro p q hpq ht g h1 h2
    rw [hr] at h2
    by_cases hb : p = b ∨ q = b
    · rw [(hpq hb).1] at h2; cases h2
    · rw [not_or] at hb
      rw [hkne q hb.2, hr]; exact ht g h1 h2
  have hthr : ∀ r, thr s' r ↔ thr s r := by intro r; simp only [thr, har, (hsame _).2.2.1]
  have hca : s'.cached = s.cached := by rw [er]
  have hab : s'.arbiters = s.arbiters := by rw [er]
  have hl : ∀ r, live s' r ↔ live s r := by intro r; simp only [live, hca, hthr]
  have hhome : ∀ c, (s'.bd c).kind ≠ .static → ((s.bd c).kind ≠ .static → (s.bd c).space = true) →
      (c = b → (s.bd b).space = false → False) → (s'.bd c).space = true := by
    intro c h1 h2 h3
    rw [(hsame c).2.2.2.2.1]
    by_cases hb : c = b
    · by_contra hc
      rw [hb] at hc
      exact h3 hb (by simpa using hc)
    · rw [hkne c hb] at h1; exact h2 h1
  refine G.update (s' := s') (sl := s.sleeping) (by rw [er]) ⟨?_, hB, ?_, ?_, ?_⟩ (fun c => (hsame c).2.2.1) har hca (by rw [er]) (by rw [er]) (by rw [er])
      (by rw [er]) (by rw [er]) (by rw [er]) ?_ ?_ (by rw [er]) (by rw [er])
  · have g := I.groups
    refine ⟨g.nodup, g.nodupT, ?_, ?_, by simp, ?_, ?_⟩
    · intro r hr'
      obtain ⟨l, h1, h2, h3⟩ := g.chain r hr'
      exact ⟨l, h1.congr (fun c => (hsame c).2.1), h2, fun c => by rw [hr c]; exact h3 c⟩
    · intro c r h1 h2
      rw [hr] at h2
      have hcb : c ≠ b := by rintro rfl; rw [h.awake] at h2; cases h2
      obtain ⟨a1, a2, a3⟩ := g.root c r h1 h2
      exact ⟨a1, by rw [hkne c hcb]; exact a2, by rw [(hsame c).2.2.2.2.1]; exact a3⟩
    · intro c; rw [hr, (hsame c).2.1]; exact g.next c
    · intro c; rw [(hsame c).2.2.2.2.1]
      have hnb : s'.nb = s.nb := by rw [er]
      rw [hnb]; exact g.nb c
  · have S := I.shapes
    refine ⟨hdN, hsN, by rw [hsh]; exact hd, by rw [hsh]; exact hs, ?_, ?_, ?_, ?_, ?_⟩
    · intro c x; rw [hsh, (hsame c).2.2.2.2.2]; exact S.att c x
    · intro c; rw [(hsame c).2.2.2.2.2]; exact S.attN c
    · intro x; rw [hsh, (hsame _).2.2.2.2.2]; exact S.own x
    · intro c x; rw [hofs, hsh, (hsame _).2.2.2.2.2]; exact S.full c x
    · intro x; rw [hsh]
      intro h1 h2
      refine hhome _ h2 (S.home x h1) ?_
      intro e hsp
      by_cases hk : (s.bd b).kind = .static
      · have := (h.bare hsp hk).shapes x e
        rw [h1] at this; cases this
      · have := S.home x h1 (by rw [e]; exact hk)
        rw [e, hsp] at this; cases this
  · have J := I.joints
    have hco : s'.cons = s.cons := by rw [er]
    refine ⟨by rw [hco]; exact J.nodup, ?_, ?_, ?_, by rw [hcn]; exact J.ne, ?_, ?_⟩
    · intro c; rw [hco, hcn, J.mem]
      constructor
      · rintro ⟨h1, h2⟩; exact ⟨h1, fun e => h2 ((howner _ _ (h.joint G c h1)).1 e)⟩
      · rintro ⟨h1, h2⟩; exact ⟨h1, fun e => h2 ((howner _ _ (h.joint G c h1)).2 e)⟩
    · intro c d; rw [hcn, (hsame c).2.2.2.1]; exact J.list c d
    · intro c; rw [(hsame c).2.2.2.1]; exact J.listN c
    · intro c; rw [hcn]
      intro h1
      obtain ⟨g1, g2⟩ := J.home c h1
      have hno : ∀ d, ((s.cn c).a = d ∨ (s.cn c).b = d) → ((s.bd d).kind ≠ .static → (s.bd d).space = true) → d = b → (s.bd b).space = false → False := by
        intro d hd' hg e hsp
        rw [e] at hd' hg
        by_cases hk : (s.bd b).kind = .static
        · have := (J.list b c).2 ⟨h1, hd'⟩
          rw [(h.bare hsp hk).cons] at this; simp at this
        · have := hg hk
          rw [hsp] at this; cases this
      exact ⟨fun q => hhome _ q g1 (hno _ (Or.inl rfl) g1), fun q => hhome _ q g2 (hno _ (Or.inr rfl) g2)⟩
    · intro c; rw [hcn]
      intro h1
      obtain ⟨g1, g2⟩ := J.group c h1
      exact ⟨htog _ _ (h.joint G c h1) g1, htog _ _ (fun e => (h.joint G c h1 e.symm).symm) g2⟩
  · have A := I.arbs
    have hfr : s'.fresh = s.fresh := by rw [er]
    have hpo : s'.pool = s.pool := by rw [er]
    refine ⟨by rw [hab]; exact A.arbN, by rw [hca]; exact A.cachedN, A.pendN, ?_, ?_, ?_, by simp, ?_, ?_, ?_, ?_, ?_, ?_⟩
    · intro r
      rw [hab, A.arb, hthr, har]
      constructor
      · rintro (h1 | ⟨h1, h2⟩)
        · exact Or.inl h1
        · exact Or.inr ⟨h1, fun e => h2 ((howner _ _ (h.arb G r h1)).1 e)⟩
      · rintro (h1 | ⟨h1, h2⟩)
        · exact Or.inl h1
        · exact Or.inr ⟨h1, fun e => h2 ((howner _ _ (h.arb G r h1)).2 e)⟩
    · intro c r; rw [hthr, har, (hsame c).2.2.1]; exact A.list c r
    · intro c; rw [(hsame c).2.2.1]; exact A.listN c
    · intro r; rw [hthr, hca, har]
      intro h1
      rw [A.cach r h1, howner _ _ (h.arb G r h1)]
    · intro r; rw [hl, har]; exact A.ne r
    · intro r; rw [hl, har, hsh]; exact A.shp r
    · intro r r'; rw [hl, hl, har]; exact A.uniq r r'
    · intro r; rw [hthr, har]
      intro h1
      obtain ⟨g1, g2⟩ := A.group r h1
      exact ⟨htog _ _ (h.arb G r h1) g1, htog _ _ (fun e => (h.arb G r h1 e.symm).symm) g2⟩
    · intro r; rw [hl, hfr, hpo]; exact A.ids r
  · intro c hc
    rcases hidle c with h1 | ⟨h1, h2⟩
    · exact h1
    · rw [h2]; exact G.kin c (by rw [← hkne c h1]; exact hc)
  · intro c; rw [hr]; exact id

/-- Shapes move from one index to the other. -/
theorem moveShapes_out : ∀ (l : List Nat) (s : St K), l.Nodup → (∀ x ∈ l, x ∈ s.dynIdx) → s.dynIdx.Nodup → s.statIdx.Nodup → (∀ x ∈ l, x ∉ s.statIdx) →
    ∃ s', moveShapes s false true l = some s' ∧ s' = { s with dynIdx := s'.dynIdx, statIdx := s'.statIdx } ∧ s'.dynIdx.Nodup ∧ s'.statIdx.Nodup ∧
      (∀ x, x ∈ s'.dynIdx ↔ (x ∈ s.dynIdx ∧ x ∉ l)) ∧ ∀ x, x ∈ s'.statIdx ↔ (x ∈ s.statIdx ∨ x ∈ l)
  | [], s, _, _, h1, h2, _ => ⟨s, rfl, rfl, h1, h2, by simp, by simp⟩
  | x :: l, s, hn, hin, h1, h2, hout => by
    have hx := hin x (by simp)
    have hxl := (List.nodup_cons.1 hn).1
    obtain ⟨s', e, er, n1, n2, m1, m2⟩ := moveShapes_out l { s with dynIdx := s.dynIdx.erase x, statIdx := s.statIdx ++ [x] } (List.nodup_cons.1 hn).2
      (by intro y hy; show y ∈ s.dynIdx.erase x; rw [h1.mem_erase_iff]; exact ⟨by rintro rfl; exact hxl hy, hin y (by simp [hy])⟩)
      (h1.erase x)
      (by
        show (s.statIdx ++ [x]).Nodup
        rw [List.nodup_append]
        exact ⟨h2, by simp, by rintro y hy z hz rfl; rw [List.mem_singleton] at hz; subst hz; exact hout y (by simp) hy⟩)
      (by
        intro y hy
        show y ∉ s.statIdx ++ [x]
        rw [List.mem_append, List.mem_singleton]
        rintro (h | rfl)
        · exact hout y (by simp [hy]) h
        · exact hxl hy)
    refine ⟨s', ?_, er, n1, n2, ?_, ?_⟩
    · simp only [moveShapes, idxRemove, if_pos hx, Bool.false_eq_true, if_false, if_true]
      exact e
    · intro y
      rw [m1]
      show y ∈ s.dynIdx.erase x ∧ _ ↔ _
      rw [h1.mem_erase_iff, List.mem_cons]; tauto
    · intro y
      rw [m2]
      show y ∈ s.statIdx ++ [x] ∨ _ ↔ _
      rw [List.mem_append, List.mem_singleton, List.mem_cons]; tauto

theorem moveShapes_in : ∀ (l : List Nat) (s : St K), l.Nodup → (∀ x ∈ l, x ∈ s.statIdx) → s.dynIdx.Nodup → s.statIdx.Nodup → (∀ x ∈ l, x ∉ s.dynIdx) →
    ∃ s', moveShapes s true false l = some s' ∧ s' = { s with dynIdx := s'.dynIdx, statIdx := s'.statIdx } ∧ s'.dynIdx.Nodup ∧ s'.statIdx.Nodup ∧
      (∀ x, x ∈ s'.statIdx ↔ (x ∈ s.statIdx ∧ x ∉ l)) ∧ ∀ x, x ∈ s'.dynIdx ↔ (x ∈ s.dynIdx ∨ x ∈ l)
  | [], s, _, _, h1, h2, _ => ⟨s, rfl, rfl, h1, h2, by simp, by simp⟩
  | x :: l, s, hn, hin, h1, h2, hout => by
    have hx := hin x (by simp)
    have hxl := (List.nodup_cons.1 hn).1
    obtain ⟨s', e, er, n1, n2, m1, m2⟩ := moveShapes_in l { s with statIdx := s.statIdx.erase x, dynIdx := s.dynIdx ++ [x] } (List.nodup_cons.1 hn).2
      (by intro y hy; show y ∈ s.statIdx.erase x; rw [h2.mem_erase_iff]; exact ⟨by rintro rfl; exact hxl hy, hin y (by simp [hy])⟩)
      (by
        show (s.dynIdx ++ [x]).Nodup
        rw [List.nodup_append]
        exact ⟨h1, by simp, by rintro y hy z hz rfl; rw [List.mem_singleton] at hz; subst hz; exact hout y (by simp) hy⟩)
      (h2.erase x)
      (by
        intro y hy
        show y ∉ s.dynIdx ++ [x]
        rw [List.mem_append, List.mem_singleton]
        rintro (h | rfl)
        · exact hout y (by simp [hy]) h
        · exact hxl hy)
    refine ⟨s', ?_, er, n1, n2, ?_, ?_⟩
    · simp only [moveShapes, idxRemove, if_pos hx, Bool.false_eq_true, if_false, if_true]
      exact e
    · intro y
      rw [m1]
      show y ∈ s.statIdx.erase x ∧ _ ↔ _
      rw [h2.mem_erase_iff, List.mem_cons]; tauto
    · intro y
      rw [m2]
      show y ∈ s.dynIdx ++ [x] ∨ _ ↔ _
      rw [List.mem_append, List.mem_singleton, List.mem_cons]; tauto

theorem moveShapes_stay : ∀ (l : List Nat) (s : St K), (∀ x ∈ l, x ∈ s.dynIdx) → s.dynIdx.Nodup →
    ∃ s', moveShapes s false false l = some s' ∧ s' = { s with dynIdx := s'.dynIdx } ∧ s'.dynIdx.Nodup ∧ ∀ x, x ∈ s'.dynIdx ↔ x ∈ s.dynIdx
  | [], s, _, h1 => ⟨s, rfl, rfl, h1, by simp⟩
  | x :: l, s, hin, h1 => by
    have hx := hin x (by simp)
    have hmem : ∀ y, y ∈ s.dynIdx.erase x ++ [x] ↔ y ∈ s.dynIdx := by
      intro y; rw [List.mem_append, List.mem_singleton, h1.mem_erase_iff]
      constructor
      · rintro (h | rfl)
        · exact h.2
        · exact hx
      · intro h; by_cases e : y = x
        · exact Or.inr e
        · exact Or.inl ⟨e, h⟩
    obtain ⟨s', e, er, n1, m1⟩ := moveShapes_stay l { s with dynIdx := s.dynIdx.erase x ++ [x] }
      (by intro y hy; exact (hmem y).2 (hin y (by simp [hy])))
      (by
        show (s.dynIdx.erase x ++ [x]).Nodup
        rw [List.nodup_append]
        refine ⟨h1.erase x, by simp, ?_⟩
        rintro y hy z hz rfl; rw [List.mem_singleton] at hz; subst hz
        exact (h1.mem_erase_iff.1 hy).1 rfl)
    refine ⟨s', ?_, er, n1, fun y => (m1 y).trans (hmem y)⟩
    simp only [moveShapes, idxRemove, if_pos hx, Bool.false_eq_true, if_false]
    exact e

theorem setType_good {s : St K} {b : Nat} (G : Good s) (h : SetTypeOk s b) (k : Kind) :
    ∃ s', setType s b k = some s' ∧ Good s' ∧ (∀ c, (s'.bd c).kind = if c = b then k else (s.bd c).kind) ∧ s'.evs = s.evs := by
  have I := G.inv
  by_cases hk : (s.bd b).kind = k
  · refine ⟨s, by simp [setType, hk], G, ?_, rfl⟩
    intro c; split
    · rename_i e; rw [e]; exact hk
    · rfl
  set s1 : St K := s.setB b fun d => { d with kind := k, idle := 0 } with hs1
  have hkind1 : ∀ c, (s1.bd c).kind = if c = b then k else (s.bd c).kind := by
    intro c; simp only [hs1, St.setB]; split <;> rfl
  have hsame1 : ∀ c, (s1.bd c).root = (s.bd c).root ∧ (s1.bd c).next = (s.bd c).next ∧ (s1.bd c).arbs = (s.bd c).arbs ∧
      (s1.bd c).cons = (s.bd c).cons ∧ (s1.bd c).space = (s.bd c).space ∧ (s1.bd c).shapes = (s.bd c).shapes := by
    intro c; simp only [hs1, St.setB]; split
    · rename_i e; subst e; exact ⟨rfl, rfl, rfl, rfl, rfl, rfl⟩
    · exact ⟨rfl, rfl, rfl, rfl, rfl, rfl⟩
  have hidle1 : ∀ c, (s1.bd c).idle = 0 ∨ (c ≠ b ∧ (s1.bd c).idle = (s.bd c).idle) := by
    intro c; simp only [hs1, St.setB]; split
    · exact Or.inl rfl
    · rename_i e; exact Or.inr ⟨e, rfl⟩
  have hfz : ∀ (t : St K), (∀ c, (t.bd c).root = (s.bd c).root) → (∀ c, (t.bd c).kind = if c = b then k else (s.bd c).kind) →
      ∀ c, frozen t [] c ↔ if c = b then k = .static else frozen s [] c := by
    intro t h1 h2 c
    simp only [frozen, off_nil, h1, h2]
    by_cases hc : c = b
    · rw [if_pos hc, if_pos hc, hc, h.awake]; simp
    · rw [if_neg hc, if_neg hc]
  have hofs : ∀ (t : St K), (∀ c, (t.bd c).root = (s.bd c).root) → ∀ c, off t [] c ↔ off s [] c := fun t h1 => off_congr h1
  by_cases hsp : (s.bd b).space = false
  · -- not in the space
    have hno : ∀ x, (s.sh x).space = true → (s.sh x).body ≠ b := by
      intro x hx e
      by_cases hst : (s.bd b).kind = .static
      · have := (h.bare hsp hst).shapes x e
        rw [hx] at this; cases this
      · have := I.shapes.home x hx (by rw [e]; exact hst)
        rw [e, hsp] at this; cases this
    refine ⟨s1, by simp only [setType, hk, hsp, if_true, if_false]; rfl, ?_, hkind1, rfl⟩
    refine kind_good G h rfl hkind1 hsame1 hidle1 ?_ I.shapes.dynN I.shapes.statN ?_ ?_
    · have B := I.blists
      have hcb : ∀ c, (s.bd c).space = true → (s1.bd c).kind = (s.bd c).kind := by
        intro c hc; rw [hkind1, if_neg]; rintro rfl; rw [hsp] at hc; cases hc
      refine ⟨B.dynN, B.statN, ?_, ?_⟩
      · intro c
        show c ∈ s.dyn ↔ _
        rw [(hsame1 c).2.2.2.2.1, hofs s1 (fun c => (hsame1 c).1), B.dyn]
        constructor
        · rintro ⟨h1, h2, h3⟩; exact ⟨h1, by rw [hcb c h1]; exact h2, h3⟩
        · rintro ⟨h1, h2, h3⟩; exact ⟨h1, by rw [← hcb c h1]; exact h2, h3⟩
      · intro c
        show c ∈ s.stat ↔ _
        rw [(hsame1 c).2.2.2.2.1, B.stat]
        constructor
        · rintro ⟨h1, h2⟩; exact ⟨h1, by rw [hcb c h1]; exact h2⟩
        · rintro ⟨h1, h2⟩; exact ⟨h1, by rw [← hcb c h1]; exact h2⟩
    · intro x
      show x ∈ s.dynIdx ↔ _
      rw [I.shapes.dyn]
      refine and_congr_right fun hx => ?_
      rw [hfz s1 (fun c => (hsame1 c).1) hkind1, if_neg (hno x hx)]
    · intro x
      show x ∈ s.statIdx ↔ _
      rw [I.shapes.stat]
      refine and_congr_right fun hx => ?_
      rw [hfz s1 (fun c => (hsame1 c).1) hkind1, if_neg (hno x hx)]
  · have hin : (s.bd b).space = true := by simpa using hsp
    have hshin : ∀ x, x ∈ (s.bd b).shapes ↔ ((s.sh x).space = true ∧ (s.sh x).body = b) := by
      intro x
      constructor
      · intro hx; exact ⟨h.full hin x hx, I.shapes.att b x hx⟩
      · rintro ⟨h1, h2⟩; have := I.shapes.own x h1; rwa [h2] at this
    -- Activate
    have hact : ∃ s2, (if (s.bd b).kind ≠ .static then activate s1 b else some s1) = some s2 ∧ SameI s1 s2 ∧
        ∀ c, (s2.bd c).idle = 0 ∨ (s2.bd c).idle = (s1.bd c).idle := by
      by_cases hst : (s.bd b).kind ≠ .static
      · rw [if_pos hst]; exact activate_awake (by rw [(hsame1 b).1]; exact h.awake)
      · rw [if_neg hst]; exact ⟨s1, rfl, SameI.refl _, fun _ => Or.inr rfl⟩
    obtain ⟨s2, e2, q2, i2⟩ := hact
    have hkind2 : ∀ c, (s2.bd c).kind = if c = b then k else (s.bd c).kind := fun c => by rw [(q2.bd c).1]; exact hkind1 c
    have hsame2 : ∀ c, (s2.bd c).root = (s.bd c).root ∧ (s2.bd c).next = (s.bd c).next ∧ (s2.bd c).arbs = (s.bd c).arbs ∧
        (s2.bd c).cons = (s.bd c).cons ∧ (s2.bd c).space = (s.bd c).space ∧ (s2.bd c).shapes = (s.bd c).shapes := by
      intro c
      obtain ⟨a1, a2, a3, a4, a5, a6, a7⟩ := q2.bd c
      obtain ⟨b1, b2, b3, b4, b5, b6⟩ := hsame1 c
      exact ⟨a2.trans b1, a3.trans b2, a5.trans b3, a6.trans b4, a7.trans b5, a4.trans b6⟩
    have hidle2 : ∀ c, (s2.bd c).idle = 0 ∨ (c ≠ b ∧ (s2.bd c).idle = (s.bd c).idle) := by
      intro c
      rcases i2 c with e | e
      · exact Or.inl e
      · rw [e]; exact hidle1 c
    have er2 : s2 = { s with bd := s2.bd } := by rw [q2.rest]; rfl
    have B := I.blists
    have S := I.shapes
    by_cases hst : (s.bd b).kind = .static
    · -- from static
      have hkns : k ≠ .static := fun e => hk (hst.trans e.symm)
      have hbst : b ∈ s.stat := (B.stat b).2 ⟨hin, hst⟩
      have hbdyn : b ∉ s.dyn := fun hc => ((B.dyn b).1 hc).2.1 hst
      set s3 : St K := { s2 with stat := s2.stat.erase b, dyn := s2.dyn ++ [b] } with hs3
      have hd3 : s3.dynIdx = s.dynIdx := by show s2.dynIdx = _; rw [er2]
      have ht3 : s3.statIdx = s.statIdx := by show s2.statIdx = _; rw [er2]
      have hshapes : (s3.bd b).shapes = (s.bd b).shapes := (hsame2 b).2.2.2.2.2
      have hfroz : frozen s [] b := Or.inl hst
      obtain ⟨s4, e4, er4, n1, n2, m1, m2⟩ := moveShapes_in (s3.bd b).shapes s3 (by rw [hshapes]; exact S.attN b)
        (by
          intro x hx
          rw [hshapes, hshin] at hx
          rw [ht3, S.stat, hx.2]; exact ⟨hx.1, hfroz⟩)
        (by rw [hd3]; exact S.dynN) (by rw [ht3]; exact S.statN)
        (by
          intro x hx
          rw [hshapes, hshin] at hx
          rw [hd3, S.dyn, hx.2]; exact fun hc => hc.2 hfroz)
      have hbd4 : s4.bd = s2.bd := by rw [er4]
      have hdy : s2.dyn = s.dyn := by rw [er2]
      have hstt : s2.stat = s.stat := by rw [er2]
      refine ⟨s4, ?_, ?_, ?_, ?_⟩
      · simp only [setType, hk, if_false]
        rw [if_neg (by rw [hin]; simp)]
        rw [if_neg (by rw [hst]; simp)] at e2
        rw [if_neg (by rw [hst]; simp)]
        simp only [hst, if_true]
        have e2' : s1 = s2 := by simpa using e2
        have hd1 : decide (k = .static) = false := by simp [hkns]
        have : (s.setB b fun d => { d with kind := k, idle := 0 }) = s2 := by rw [← e2']
        rw [this, hd1]; exact e4
      · refine kind_good G h (by rw [er4, hs3]; simp only [hs3]; rw [er2]) (by rw [hbd4]; exact hkind2) (by rw [hbd4]; exact hsame2) (by rw [hbd4]; exact hidle2) ?_ n1 n2 ?_ ?_
        · have e5 : s4.dyn = s.dyn ++ [b] := by rw [er4]; show s2.dyn ++ [b] = _; rw [hdy]
          have e6 : s4.stat = s.stat.erase b := by rw [er4]; show s2.stat.erase b = _; rw [hstt]
          refine ⟨?_, by rw [e6]; exact B.statN.erase b, ?_, ?_⟩
          · rw [e5, List.nodup_append]
            exact ⟨B.dynN, by simp, by rintro y hy z hz rfl; rw [List.mem_singleton] at hz; subst hz; exact hbdyn hy⟩
          · intro c
            rw [e5, List.mem_append, List.mem_singleton, B.dyn, hbd4, hkind2, (hsame2 c).2.2.2.2.1, hofs s4 (by rw [hbd4]; exact fun c => (hsame2 c).1)]
            by_cases hc : c = b
            · subst hc
              rw [if_pos rfl]
              exact ⟨fun _ => ⟨hin, hkns, by rw [off_nil]; simp [h.awake]⟩, fun _ => Or.inr rfl⟩
            · rw [if_neg hc]; simp [hc]
          · intro c
            rw [e6, B.statN.mem_erase_iff, B.stat, hbd4, hkind2, (hsame2 c).2.2.2.2.1]
            by_cases hc : c = b
            · rw [if_pos hc]; simp [hc, hkns]
            · rw [if_neg hc]; simp [hc]
        · intro x
          rw [m2, hd3, hshapes, hshin, S.dyn, hfz s4 (by rw [hbd4]; exact fun c => (hsame2 c).1) (by rw [hbd4]; exact hkind2)]
          by_cases hc : (s.sh x).body = b
          · rw [if_pos hc, hc]; constructor
            · rintro (⟨h1, h2⟩ | ⟨h1, _⟩)
              · exact absurd hfroz h2
              · exact ⟨h1, hkns⟩
            · rintro ⟨h1, _⟩; exact Or.inr ⟨h1, rfl⟩
          · rw [if_neg hc]; constructor
            · rintro (h1 | h1)
              · exact h1
              · exact absurd h1.2 hc
            · exact Or.inl
        · intro x
          rw [m1, ht3, hshapes, hshin, S.stat, hfz s4 (by rw [hbd4]; exact fun c => (hsame2 c).1) (by rw [hbd4]; exact hkind2)]
          by_cases hc : (s.sh x).body = b
          · rw [if_pos hc, hc]; constructor
            · rintro ⟨⟨h1, _⟩, h2⟩; exact absurd ⟨h1, rfl⟩ h2
            · rintro ⟨_, h2⟩; exact absurd h2 hkns
          · rw [if_neg hc]; constructor
            · exact fun h => h.1
            · exact fun h => ⟨h, fun e => hc e.2⟩
      · intro c; rw [hbd4]; exact hkind2 c
      · rw [er4]; show s2.evs = _; rw [er2]
    · have hbdyn : b ∈ s.dyn := (B.dyn b).2 ⟨hin, hst, by rw [off_nil]; simp [h.awake]⟩
      have hfroz : ¬ frozen s [] b := by
        rintro (h1 | h1)
        · exact hst h1
        · exact (off_nil.1 h1) h.awake
      by_cases hkst : k = .static
      · -- to static
        have hbst : b ∉ s.stat := fun hc => hst ((B.stat b).1 hc).2
        set s3 : St K := { s2 with dyn := s2.dyn.erase b, stat := s2.stat ++ [b] } with hs3
        have hd3 : s3.dynIdx = s.dynIdx := by show s2.dynIdx = _; rw [er2]
        have ht3 : s3.statIdx = s.statIdx := by show s2.statIdx = _; rw [er2]
        have hshapes : (s3.bd b).shapes = (s.bd b).shapes := (hsame2 b).2.2.2.2.2
        obtain ⟨s4, e4, er4, n1, n2, m1, m2⟩ := moveShapes_out (s3.bd b).shapes s3 (by rw [hshapes]; exact S.attN b)
          (by
            intro x hx
            rw [hshapes, hshin] at hx
            rw [hd3, S.dyn, hx.2]; exact ⟨hx.1, hfroz⟩)
          (by rw [hd3]; exact S.dynN) (by rw [ht3]; exact S.statN)
          (by
            intro x hx
            rw [hshapes, hshin] at hx
            rw [ht3, S.stat, hx.2]; exact fun hc => hfroz hc.2)
        have hbd4 : s4.bd = s2.bd := by rw [er4]
        have hdy : s2.dyn = s.dyn := by rw [er2]
        have hstt : s2.stat = s.stat := by rw [er2]
        refine ⟨s4, ?_, ?_, ?_, ?_⟩
        · simp only [setType, hk, if_false]
          rw [if_neg (by rw [hin]; simp)]
          rw [e2]
          have hd1 : decide ((s.bd b).kind = .static) = false := by simp [hst]
          have hd2 : decide (k = .static) = true := by simp [hkst]
          simp only [hst, if_false]
          rw [if_pos hkst, hd2]
          simp only [decide_false]
          exact e4
        · refine kind_good G h (by rw [er4, hs3]; simp only [hs3]; rw [er2]) (by rw [hbd4]; exact hkind2) (by rw [hbd4]; exact hsame2) (by rw [hbd4]; exact hidle2) ?_ n1 n2 ?_ ?_
          · have e5 : s4.stat = s.stat ++ [b] := by rw [er4]; show s2.stat ++ [b] = _; rw [hstt]
            have e6 : s4.dyn = s.dyn.erase b := by rw [er4]; show s2.dyn.erase b = _; rw [hdy]
            refine ⟨by rw [e6]; exact B.dynN.erase b, ?_, ?_, ?_⟩
            · rw [e5, List.nodup_append]
              exact ⟨B.statN, by simp, by rintro y hy z hz rfl; rw [List.mem_singleton] at hz; subst hz; exact hbst hy⟩
            · intro c
              rw [e6, B.dynN.mem_erase_iff, B.dyn, hbd4, hkind2, (hsame2 c).2.2.2.2.1, hofs s4 (by rw [hbd4]; exact fun c => (hsame2 c).1)]
              by_cases hc : c = b
              · rw [if_pos hc]; simp [hc, hkst]
              · rw [if_neg hc]; simp [hc]
            · intro c
              rw [e5, List.mem_append, List.mem_singleton, B.stat, hbd4, hkind2, (hsame2 c).2.2.2.2.1]
              by_cases hc : c = b
              · subst hc
                rw [if_pos rfl]
                exact ⟨fun _ => ⟨hin, hkst⟩, fun _ => Or.inr rfl⟩
              · rw [if_neg hc]; simp [hc]
          · intro x
            rw [m1, hd3, hshapes, hshin, S.dyn, hfz s4 (by rw [hbd4]; exact fun c => (hsame2 c).1) (by rw [hbd4]; exact hkind2)]
            by_cases hc : (s.sh x).body = b
            · rw [if_pos hc, hc]; constructor
              · rintro ⟨⟨h1, _⟩, h2⟩; exact absurd ⟨h1, rfl⟩ h2
              · rintro ⟨_, h2⟩; exact absurd hkst h2
            · rw [if_neg hc]; constructor
              · exact fun h => h.1
              · exact fun h => ⟨h, fun e => hc e.2⟩
          · intro x
            rw [m2, ht3, hshapes, hshin, S.stat, hfz s4 (by rw [hbd4]; exact fun c => (hsame2 c).1) (by rw [hbd4]; exact hkind2)]
            by_cases hc : (s.sh x).body = b
            · rw [if_pos hc, hc]; constructor
              · rintro (⟨h1, h2⟩ | ⟨h1, _⟩)
                · exact absurd h2 hfroz
                · exact ⟨h1, hkst⟩
              · rintro ⟨h1, _⟩; exact Or.inr ⟨h1, rfl⟩
            · rw [if_neg hc]; constructor
              · rintro (h1 | h1)
                · exact h1
                · exact absurd h1.2 hc
              · exact Or.inl
        · intro c; rw [hbd4]; exact hkind2 c
        · rw [er4]; show s2.evs = _; rw [er2]
      · -- between dynamic and kinematic
        have hd3 : s2.dynIdx = s.dynIdx := by rw [er2]
        have ht3 : s2.statIdx = s.statIdx := by rw [er2]
        have hshapes : (s2.bd b).shapes = (s.bd b).shapes := (hsame2 b).2.2.2.2.2
        obtain ⟨s4, e4, er4, n1, m1⟩ := moveShapes_stay (s2.bd b).shapes s2
          (by
            intro x hx
            rw [hshapes, hshin] at hx
            rw [hd3, S.dyn, hx.2]; exact ⟨hx.1, hfroz⟩)
          (by rw [hd3]; exact S.dynN)
        have hbd4 : s4.bd = s2.bd := by rw [er4]
        have hdy : s4.dyn = s.dyn := by rw [er4, er2]
        have hstt : s4.stat = s.stat := by rw [er4, er2]
        have hst4 : s4.statIdx = s.statIdx := by rw [er4]; exact ht3
        have hfz4 : ∀ c, frozen s4 [] c ↔ frozen s [] c := by
          intro c
          rw [hfz s4 (by rw [hbd4]; exact fun c => (hsame2 c).1) (by rw [hbd4]; exact hkind2)]
          split
          · rename_i hc; rw [hc]; exact iff_of_false hkst hfroz
          · rfl
        refine ⟨s4, ?_, ?_, ?_, ?_⟩
        · simp only [setType, hk, if_false]
          rw [if_neg (by rw [hin]; simp)]
          rw [e2]
          simp only [hst, if_false]
          rw [if_neg hkst]
          have hd2 : decide (k = .static) = false := by simp [hkst]
          rw [hd2]
          simp only [decide_false]
          exact e4
        · refine kind_good G h (by rw [er4, er2]) (by rw [hbd4]; exact hkind2) (by rw [hbd4]; exact hsame2) (by rw [hbd4]; exact hidle2) ?_ n1 (by rw [hst4]; exact S.statN) ?_ ?_
          · refine ⟨by rw [hdy]; exact B.dynN, by rw [hstt]; exact B.statN, ?_, ?_⟩
            · intro c
              rw [hdy, B.dyn, hbd4, hkind2, (hsame2 c).2.2.2.2.1, hofs s4 (by rw [hbd4]; exact fun c => (hsame2 c).1)]
              by_cases hc : c = b
              · rw [if_pos hc, hc]; simp [hst, hkst]
              · rw [if_neg hc]
            · intro c
              rw [hstt, B.stat, hbd4, hkind2, (hsame2 c).2.2.2.2.1]
              by_cases hc : c = b
              · rw [if_pos hc, hc]; simp [hst, hkst]
              · rw [if_neg hc]
          · intro x; rw [m1, hd3, S.dyn, hfz4]
          · intro x; rw [hst4, S.stat, hfz4]
        · intro c; rw [hbd4]; exact hkind2 c
        · rw [er4, er2]

end Sp
end Cm
