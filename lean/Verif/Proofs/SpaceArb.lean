import Verif.Proofs.SpaceLoop

/-! # Collisions come and go -/
set_option linter.unusedSectionVars false
set_option linter.unusedSimpArgs false
set_option linter.unusedVariables false
set_option linter.unusedTactic false
set_option linter.unreachableTactic false

namespace Cm
namespace Sp
variable {K : Type}

/-- Only collisions and what the invariant does not read differ. -/
structure SameNA (s s' : St K) : Prop where
  sh : s'.sh = s.sh
  cn : s'.cn = s.cn
  nb : s'.nb = s.nb
  dyn : s'.dyn = s.dyn
  stat : s'.stat = s.stat
  dynIdx : s'.dynIdx = s.dynIdx
  statIdx : s'.statIdx = s.statIdx
  cons : s'.cons = s.cons
  bd : ∀ b, (s'.bd b).kind = (s.bd b).kind ∧ (s'.bd b).root = (s.bd b).root ∧ (s'.bd b).next = (s.bd b).next ∧
    (s'.bd b).shapes = (s.bd b).shapes ∧ (s'.bd b).cons = (s.bd b).cons ∧ (s'.bd b).space = (s.bd b).space

theorem Inv.withArbs {s s' : St K} {sl T P P' : List Nat} (I : Inv s sl T P) (h : SameNA s s') (A : ArbsI s' T P') : Inv s' sl T P' :=
  have hk := fun b => (h.bd b).1
  have hr := fun b => (h.bd b).2.1
  have hn := fun b => (h.bd b).2.2.1
  have hx := fun b => (h.bd b).2.2.2.1
  have hc := fun b => (h.bd b).2.2.2.2.1
  have hs := fun b => (h.bd b).2.2.2.2.2
  ⟨I.groups.congr hk hr hn hs h.nb, I.blists.congr hk hr hs h.dyn h.stat, I.shapes.congr hk hr hs hx h.sh h.dynIdx h.statIdx,
   I.joints.congr hk hr hs hc h.cn h.cons, A⟩

/-- Taking a collision from the lists of its bodies. -/
structure Thinned (s s' : St K) (r : Nat) : Prop where
  na : SameNA s s'
  arbs : ∀ b, (s'.bd b).arbs = (s.bd b).arbs.erase r
  ar : ∀ q, (s'.ar q).sa = (s.ar q).sa ∧ (s'.ar q).sb = (s.ar q).sb ∧ (s'.ar q).a = (s.ar q).a ∧ (s'.ar q).b = (s.ar q).b
  arbiters : s'.arbiters = s.arbiters.erase r
  fresh : s'.fresh = s.fresh

theorem Thinned.thr {s s' : St K} {sl T P : List Nat} {r : Nat} (I : Inv s sl T P) (h : Thinned s s' r) (q : Nat) :
    thr s' q ↔ (q ≠ r ∧ thr s q) := by
  simp only [Sp.thr, (h.ar q).2.2.1, h.arbs]
  rw [(I.arbs.listN _).mem_erase_iff]

/-- The collision stays in the cache. -/
theorem Inv.thin {s s' : St K} {sl T P : List Nat} {r : Nat} (I : Inv s sl T P) (h : Thinned s s' r) (hr : r ∈ s.cached) (hP : r ∉ P)
    (hc : s'.cached = s.cached) (hp : s'.pool = s.pool) : Inv s' sl T P := by
  have ht := h.thr I
  have A := I.arbs
  have hkk := fun b => (h.na.bd b).1
  have hrr := fun b => (h.na.bd b).2.1
  have hl : ∀ q, live s' q ↔ live s q := by
    intro q
    simp only [live, hc, ht]
    constructor
    · rintro (h | h)
      · exact Or.inl h
      · exact Or.inr h.2
    · rintro (h | h)
      · exact Or.inl h
      · by_cases e : q = r
        · subst e; exact Or.inl hr
        · exact Or.inr ⟨e, h⟩
  refine I.withArbs h.na ⟨?_, hc ▸ A.cachedN, A.pendN, ?_, ?_, ?_, ?_, ?_, ?_, ?_, ?_, ?_, ?_⟩
  · rw [h.arbiters]; exact A.arbN.erase r
  · intro q
    rw [h.arbiters, A.arbN.mem_erase_iff, A.arb, ht, off_congr hrr, owner_congr hkk, (h.ar q).2.2.1, (h.ar q).2.2.2]
    constructor
    · rintro ⟨h1, h2 | h2⟩
      · exact Or.inl h2
      · exact Or.inr ⟨⟨h1, h2.1⟩, h2.2⟩
    · rintro (h1 | ⟨⟨h1, h2⟩, h3⟩)
      · exact ⟨by rintro rfl; exact hP h1, Or.inl h1⟩
      · exact ⟨h1, Or.inr ⟨h2, h3⟩⟩
  · intro b q
    rw [h.arbs, (A.listN b).mem_erase_iff, A.list, ht, (h.ar q).2.2.1, (h.ar q).2.2.2, and_assoc]
  · intro b; rw [h.arbs]; exact (A.listN b).erase r
  · intro q hq; rw [hc, ht]; exact ⟨(A.pend q hq).1, fun k => (A.pend q hq).2 k.2⟩
  · intro q hq
    rw [ht] at hq
    rw [hc, off_congr hrr, owner_congr hkk, (h.ar q).2.2.1, (h.ar q).2.2.2]
    exact A.cach q hq.2
  · intro q; rw [hl, (h.ar q).2.2.1, (h.ar q).2.2.2]; exact A.ne q
  · intro q; rw [hl, h.na.sh, (h.ar q).1, (h.ar q).2.1, (h.ar q).2.2.1, (h.ar q).2.2.2]; exact A.shp q
  · intro q q'
    simp only [Ar.isPair]
    rw [hl, hl, (h.ar q).1, (h.ar q).2.1, (h.ar q').1, (h.ar q').2.1]; exact A.uniq q q'
  · intro q; rw [ht, (h.ar q).2.2.1, (h.ar q).2.2.2]
    intro k; exact ⟨(A.group q k.2).1.congr hrr hkk, (A.group q k.2).2.congr hrr hkk⟩
  · intro q; rw [hl, h.fresh, hp]; exact A.ids q

/-- The collision also leaves the cache. -/
theorem Inv.forget {s s' : St K} {sl T P : List Nat} {r : Nat} (I : Inv s sl T P) (h : Thinned s s' r) (hr : r ∈ s.cached) (hP : r ∉ P)
    (hc : s'.cached = s.cached.erase r) (hp : s'.pool = r :: s.pool) : Inv s' sl T P ∧ ∀ q, live s' q ↔ (live s q ∧ q ≠ r) := by
  have ht := h.thr I
  have A := I.arbs
  have hkk := fun b => (h.na.bd b).1
  have hrr := fun b => (h.na.bd b).2.1
  have hmc : ∀ q, q ∈ s'.cached ↔ (q ≠ r ∧ q ∈ s.cached) := fun q => by rw [hc]; exact A.cachedN.mem_erase_iff
  have hl : ∀ q, live s' q ↔ (live s q ∧ q ≠ r) := by
    intro q
    simp only [live, hmc, ht]
    constructor
    · rintro (h | h)
      · exact ⟨Or.inl h.2, h.1⟩
      · exact ⟨Or.inr h.2, h.1⟩
    · rintro ⟨h | h, h'⟩
      · exact Or.inl ⟨h', h⟩
      · exact Or.inr ⟨h', h⟩
  refine ⟨I.withArbs h.na ⟨?_, hc ▸ A.cachedN.erase r, A.pendN, ?_, ?_, ?_, ?_, ?_, ?_, ?_, ?_, ?_, ?_⟩, hl⟩
  · rw [h.arbiters]; exact A.arbN.erase r
  · intro q
    rw [h.arbiters, A.arbN.mem_erase_iff, A.arb, ht, off_congr hrr, owner_congr hkk, (h.ar q).2.2.1, (h.ar q).2.2.2]
    constructor
    · rintro ⟨h1, h2 | h2⟩
      · exact Or.inl h2
      · exact Or.inr ⟨⟨h1, h2.1⟩, h2.2⟩
    · rintro (h1 | ⟨⟨h1, h2⟩, h3⟩)
      · exact ⟨by rintro rfl; exact hP h1, Or.inl h1⟩
      · exact ⟨h1, Or.inr ⟨h2, h3⟩⟩
  · intro b q
    rw [h.arbs, (A.listN b).mem_erase_iff, A.list, ht, (h.ar q).2.2.1, (h.ar q).2.2.2, and_assoc]
  · intro b; rw [h.arbs]; exact (A.listN b).erase r
  · intro q hq; rw [hmc, ht]; exact ⟨⟨by rintro rfl; exact hP hq, (A.pend q hq).1⟩, fun k => (A.pend q hq).2 k.2⟩
  · intro q hq
    rw [ht] at hq
    rw [hmc, off_congr hrr, owner_congr hkk, (h.ar q).2.2.1, (h.ar q).2.2.2, ← A.cach q hq.2]
    exact ⟨fun k => k.2, fun k => ⟨hq.1, k⟩⟩
  · intro q; rw [hl, (h.ar q).2.2.1, (h.ar q).2.2.2]; exact fun k => A.ne q k.1
  · intro q; rw [hl, h.na.sh, (h.ar q).1, (h.ar q).2.1, (h.ar q).2.2.1, (h.ar q).2.2.2]; exact fun k => A.shp q k.1
  · intro q q'
    simp only [Ar.isPair]
    rw [hl, hl, (h.ar q).1, (h.ar q).2.1, (h.ar q').1, (h.ar q').2.1]; exact fun k k' => A.uniq q q' k.1 k'.1
  · intro q; rw [ht, (h.ar q).2.2.1, (h.ar q).2.2.2]
    intro k; exact ⟨(A.group q k.2).1.congr hrr hkk, (A.group q k.2).2.congr hrr hkk⟩
  · intro q; rw [hl, h.fresh, hp]
    intro k
    have := A.ids q k.1
    refine ⟨this.1, ?_⟩
    simp only [List.mem_cons, not_or]
    exact ⟨k.2, this.2⟩

/-- A collision is put in the lists of its two bodies, which are awake. -/
theorem Inv.push {s : St K} {sl T P : List Nat} {r : Nat} (I : Inv s sl T (r :: P))
    (ha : ¬ off s T (s.ar r).a) (hb : ¬ off s T (s.ar r).b) :
    Inv ((s.setB (s.ar r).a fun d => { d with arbs := r :: d.arbs }).setB (s.ar r).b fun d => { d with arbs := r :: d.arbs }) sl T P := by
  have A := I.arbs
  have hpr := A.pend r (by simp)
  have hne := A.ne r (Or.inl hpr.1)
  have hrP : r ∉ P := (List.nodup_cons.1 A.pendN).1
  set s' := (s.setB (s.ar r).a fun d => { d with arbs := r :: d.arbs }).setB (s.ar r).b fun d => { d with arbs := r :: d.arbs } with hs'
  have hbd : ∀ c, (s'.bd c).arbs = if (s.ar r).a = c ∨ (s.ar r).b = c then r :: (s.bd c).arbs else (s.bd c).arbs := by
    intro c
    simp only [hs', St.setB]
    by_cases h1 : c = (s.ar r).b
    · subst h1; simp [Ne.symm hne]
    · by_cases h2 : c = (s.ar r).a
      · subst h2; simp [hne]
      · simp [h1, h2, Ne.symm h1, Ne.symm h2]
  have hna : SameNA s s' := by
    refine ⟨rfl, rfl, rfl, rfl, rfl, rfl, rfl, rfl, fun c => ?_⟩
    simp only [hs', St.setB]
    by_cases h1 : c = (s.ar r).b
    · subst h1; simp [Ne.symm hne]
    · by_cases h2 : c = (s.ar r).a
      · subst h2; simp [hne]
      · simp [h1, h2]
  have hrr := fun b => (hna.bd b).2.1
  have hkk := fun b => (hna.bd b).1
  have ht : ∀ q, thr s' q ↔ (thr s q ∨ q = r) := by
    intro q
    show q ∈ (s'.bd (s.ar q).a).arbs ↔ _
    rw [hbd]
    by_cases e : q = r
    · subst e; simp
    · simp only [thr, e, or_false]
      split
      · simp [e]
      · exact Iff.rfl
  have hl : ∀ q, live s' q ↔ live s q := by
    intro q
    show (q ∈ s.cached ∨ thr s' q) ↔ _
    rw [ht]
    constructor
    · rintro (h | h | rfl)
      · exact Or.inl h
      · exact Or.inr h
      · exact Or.inl hpr.1
    · rintro (h | h)
      · exact Or.inl h
      · exact Or.inr (Or.inl h)
  have hno : ¬ off s T (owner s (s.ar r).a (s.ar r).b) := by
    unfold owner; split
    · exact hb
    · exact ha
  refine I.withArbs hna ⟨A.arbN, A.cachedN, (List.nodup_cons.1 A.pendN).2, ?_, ?_, ?_, ?_, ?_, ?_, ?_, ?_, ?_, ?_⟩
  · intro q
    rw [ht, off_congr hrr, owner_congr hkk]
    show q ∈ s.arbiters ↔ (q ∈ P ∨ (thr s q ∨ q = r) ∧ ¬ off s T (owner s (s.ar q).a (s.ar q).b))
    rw [A.arb, List.mem_cons]
    constructor
    · rintro ((rfl | h) | h)
      · exact Or.inr ⟨Or.inr rfl, hno⟩
      · exact Or.inl h
      · exact Or.inr ⟨Or.inl h.1, h.2⟩
    · rintro (h | ⟨h | rfl, h2⟩)
      · exact Or.inl (Or.inr h)
      · exact Or.inr ⟨h, h2⟩
      · exact Or.inl (Or.inl rfl)
  · intro b q
    rw [hbd, ht]
    show _ ↔ (thr s q ∨ q = r) ∧ ((s.ar q).a = b ∨ (s.ar q).b = b)
    by_cases e : q = r
    · subst e
      split
      · rename_i h; simp [h]
      · rename_i h
        constructor
        · intro k; exact absurd ((A.list b q).1 k).2 h
        · intro k; exact absurd k.2 h
    · simp only [e, or_false]
      rw [← A.list b q]
      split
      · simp [e]
      · exact Iff.rfl
  · intro b
    rw [hbd]
    split
    · rw [List.nodup_cons]
      exact ⟨fun k => hpr.2 ((A.list b r).1 k).1, A.listN b⟩
    · exact A.listN b
  · intro q hq
    rw [ht]
    have := A.pend q (by simp [hq])
    exact ⟨this.1, fun k => k.elim this.2 (by rintro rfl; exact hrP hq)⟩
  · intro q hq
    rw [ht] at hq
    rw [off_congr hrr, owner_congr hkk]
    show q ∈ s.cached ↔ ¬ off s T (owner s (s.ar q).a (s.ar q).b)
    rcases hq with hq | rfl
    · exact A.cach q hq
    · exact ⟨fun _ => hno, fun _ => hpr.1⟩
  · intro q; rw [hl]; exact A.ne q
  · intro q; rw [hl]; exact A.shp q
  · intro q q'; rw [hl, hl]; exact A.uniq q q'
  · intro q hq
    rw [ht] at hq
    rcases hq with hq | rfl
    · exact ⟨(A.group q hq).1.congr hrr hkk, (A.group q hq).2.congr hrr hkk⟩
    · constructor
      · intro g h1 h2
        exfalso; apply ha; left
        have h2' : (s'.bd (s.ar q).a).root = some g := h2
        rw [hrr] at h2'; rw [h2']; simp
      · intro g h1 h2
        exfalso; apply hb; left
        have h2' : (s'.bd (s.ar q).b).root = some g := h2
        rw [hrr] at h2'; rw [h2']; simp
  · intro q; rw [hl]; exact A.ids q

/-- A collision not in any list of a body is found again, or made: it gets the shapes `x` and `y`. -/
theorem Inv.touch {s s' : St K} {sl T P : List Nat} {r x y : Nat} (I : Inv s sl T P) (hna : SameNA s s') (harb : ∀ b, (s'.bd b).arbs = (s.bd b).arbs)
    (hth : ¬ thr s r) (hnot : ∀ b, r ∉ (s.bd b).arbs)
    (hr : (s'.ar r).sa = x ∧ (s'.ar r).sb = y ∧ (s'.ar r).a = (s.sh x).body ∧ (s'.ar r).b = (s.sh y).body)
    (ho : ∀ q, q ≠ r → (s'.ar q).sa = (s.ar q).sa ∧ (s'.ar q).sb = (s.ar q).sb ∧ (s'.ar q).a = (s.ar q).a ∧ (s'.ar q).b = (s.ar q).b)
    (hx : (s.sh x).space = true) (hy : (s.sh y).space = true) (hne : (s.sh x).body ≠ (s.sh y).body)
    (hu : ∀ q, live s q → q ≠ r → (s.ar q).isPair x y = false)
    (hcN : s'.cached.Nodup) (hc : ∀ q, q ∈ s'.cached ↔ (q ∈ s.cached ∨ q = r)) (hab : s'.arbiters = s.arbiters)
    (hf : s.fresh ≤ s'.fresh ∧ r < s'.fresh ∧ r ∉ s'.pool ∧ s'.pool = s.pool) : Inv s' sl T P ∧ ¬ thr s' r := by
  have A := I.arbs
  have hkk := fun b => (hna.bd b).1
  have hrr := fun b => (hna.bd b).2.1
  have hthr' : ¬ thr s' r := by
    intro h; simp only [thr, harb] at h; exact hnot _ h
  have ht : ∀ q, thr s' q ↔ thr s q := by
    intro q
    by_cases e : q = r
    · subst e; exact ⟨fun h => absurd h hthr', fun h => absurd h hth⟩
    · simp only [thr, harb, (ho q e).2.2.1]
  have hl : ∀ q, q ≠ r → (live s' q ↔ live s q) := by
    intro q e; simp only [live, hc, ht, e, or_false]
  have hrne : ∀ q, thr s q → q ≠ r := by rintro q h rfl; exact hth h
  refine ⟨I.withArbs hna ⟨?_, hcN, A.pendN, ?_, ?_, ?_, ?_, ?_, ?_, ?_, ?_, ?_, ?_⟩, hthr'⟩
  · rw [hab]; exact A.arbN
  · intro q
    rw [hab, A.arb, ht]
    by_cases e : q = r
    · subst e; simp [hth]
    · rw [off_congr hrr, owner_congr hkk, (ho q e).2.2.1, (ho q e).2.2.2]
  · intro b q
    rw [harb, ht, A.list]
    by_cases e : q = r
    · subst e; simp [hth]
    · rw [(ho q e).2.2.1, (ho q e).2.2.2]
  · intro b; rw [harb]; exact A.listN b
  · intro q hq; rw [hc, ht]; exact ⟨Or.inl (A.pend q hq).1, (A.pend q hq).2⟩
  · intro q hq
    rw [ht] at hq
    have e := hrne q hq
    rw [hc, off_congr hrr, owner_congr hkk, (ho q e).2.2.1, (ho q e).2.2.2, ← A.cach q hq]
    simp [e]
  · intro q hq
    by_cases e : q = r
    · subst e; rw [hr.2.2.1, hr.2.2.2]; exact hne
    · rw [(ho q e).2.2.1, (ho q e).2.2.2]; exact A.ne q ((hl q e).1 hq)
  · intro q hq
    by_cases e : q = r
    · subst e; rw [hr.1, hr.2.1, hr.2.2.1, hr.2.2.2, hna.sh]; exact ⟨rfl, rfl, hx, hy⟩
    · rw [(ho q e).1, (ho q e).2.1, (ho q e).2.2.1, (ho q e).2.2.2, hna.sh]; exact A.shp q ((hl q e).1 hq)
  · intro q q' hq hq' hp
    by_cases e : q = r
    · subst e
      by_cases e' : q' = q
      · exact e'.symm
      · exfalso
        rw [Ar.isPair_comm_self] at hp
        rw [hr.1, hr.2.1] at hp
        have := hu q' ((hl q' e').1 hq') e'
        simp only [Ar.isPair, (ho q' e').1, (ho q' e').2.1] at hp this
        rw [this] at hp; cases hp
    · by_cases e' : q' = r
      · subst e'
        exfalso
        rw [hr.1, hr.2.1] at hp
        have := hu q ((hl q e).1 hq) e
        simp only [Ar.isPair, (ho q e).1, (ho q e).2.1] at hp this
        rw [this] at hp; cases hp
      · simp only [Ar.isPair, (ho q e).1, (ho q e).2.1, (ho q' e').1, (ho q' e').2.1] at hp
        exact A.uniq q q' ((hl q e).1 hq) ((hl q' e').1 hq') hp
  · intro q hq
    rw [ht] at hq
    have e := hrne q hq
    rw [(ho q e).2.2.1, (ho q e).2.2.2]
    exact ⟨(A.group q hq).1.congr hrr hkk, (A.group q hq).2.congr hrr hkk⟩
  · intro q hq
    by_cases e : q = r
    · subst e; exact ⟨hf.2.1, hf.2.2.1⟩
    · have := A.ids q ((hl q e).1 hq)
      rw [hf.2.2.2]; exact ⟨lt_of_lt_of_le this.1 hf.1, this.2⟩

/-- A collision is accepted: it waits to be put in the lists of its bodies. -/
theorem Inv.accept {s : St K} {sl T P : List Nat} {r : Nat} (I : Inv s sl T P) (hc : r ∈ s.cached) (ht : ¬ thr s r) (hP : r ∉ P) :
    Inv { s with arbiters := s.arbiters ++ [r] } sl T (P ++ [r]) := by
  have A := I.arbs
  refine I.withArbs ⟨rfl, rfl, rfl, rfl, rfl, rfl, rfl, rfl, fun _ => ⟨rfl, rfl, rfl, rfl, rfl, rfl⟩⟩
    ⟨?_, A.cachedN, ?_, ?_, A.list, A.listN, ?_, A.cach, A.ne, A.shp, A.uniq, A.group, A.ids⟩
  · rw [List.nodup_append]
    refine ⟨A.arbN, by simp, ?_⟩
    rintro q hq q' hq' rfl
    simp only [List.mem_singleton] at hq'
    subst hq'
    rcases (A.arb q).1 hq with h | h
    · exact hP h
    · exact ht h.1
  · rw [List.nodup_append]
    refine ⟨A.pendN, by simp, ?_⟩
    rintro q hq q' hq' rfl
    simp only [List.mem_singleton] at hq'
    subst hq'; exact hP hq
  · intro q
    show q ∈ s.arbiters ++ [r] ↔ (q ∈ P ++ [r] ∨ (thr s q ∧ ¬ off s T (owner s (s.ar q).a (s.ar q).b)))
    rw [List.mem_append, List.mem_append, List.mem_singleton, A.arb]
    constructor
    · rintro ((h | h) | h)
      · exact Or.inl (Or.inl h)
      · exact Or.inr h
      · exact Or.inl (Or.inr h)
    · rintro ((h | h) | h)
      · exact Or.inl (Or.inl h)
      · exact Or.inr h
      · exact Or.inl (Or.inr h)
  · intro q hq
    rw [List.mem_append, List.mem_singleton] at hq
    rcases hq with h | rfl
    · exact A.pend q h
    · exact ⟨hc, ht⟩

end Sp
end Cm
