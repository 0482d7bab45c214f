import Verif.Proofs.SpaceBasic

/-! # Waking bodies keeps the bookkeeping -/
set_option linter.unusedSectionVars false
set_option linter.unusedSimpArgs false
set_option linter.unusedVariables false
set_option linter.unusedTactic false
set_option linter.unreachableTactic false

namespace Cm
namespace Sp
variable {K : Type}

/-- What waking and falling asleep leave as it is: everything but idle times, groups and the lists of what is awake. -/
structure Quiet (s s' : St K) : Prop where
  sh : s'.sh = s.sh
  cn : s'.cn = s.cn
  nb : s'.nb = s.nb
  stat : s'.stat = s.stat
  stamp : s'.stamp = s.stamp
  persistence : s'.persistence = s.persistence
  threshold : s'.threshold = s.threshold
  locked : s'.locked = s.locked
  fresh : s'.fresh = s.fresh
  pool : s'.pool = s.pool
  evs : s'.evs = s.evs
  bd : ∀ b, (s'.bd b).kind = (s.bd b).kind ∧ (s'.bd b).shapes = (s.bd b).shapes ∧ (s'.bd b).arbs = (s.bd b).arbs ∧
    (s'.bd b).cons = (s.bd b).cons ∧ (s'.bd b).space = (s.bd b).space
  ar : ∀ r, (s'.ar r).sa = (s.ar r).sa ∧ (s'.ar r).sb = (s.ar r).sb ∧ (s'.ar r).a = (s.ar r).a ∧ (s'.ar r).b = (s.ar r).b ∧
    (s'.ar r).state = (s.ar r).state ∧ (s'.ar r).count = (s.ar r).count
  live : ∀ r, live s' r ↔ live s r
  stamps : (∀ r ∈ s.arbiters, (s.ar r).stamp = s.stamp) → ∀ r ∈ s'.arbiters, (s'.ar r).stamp = s'.stamp
  restamp : ∀ r, (s'.ar r).stamp = (s.ar r).stamp ∨ (thr s r ∧ (s'.ar r).stamp = s.stamp)

theorem Quiet.refl (s : St K) : Quiet s s := by
  constructor
  case stamps => exact fun h => h
  case restamp => exact fun r => Or.inl rfl
  all_goals (intros; simp)

theorem Quiet.trans {s t u : St K} (h : Quiet s t) (k : Quiet t u) : Quiet s u where
  sh := k.sh.trans h.sh
  cn := k.cn.trans h.cn
  nb := k.nb.trans h.nb
  stat := k.stat.trans h.stat
  stamp := k.stamp.trans h.stamp
  persistence := k.persistence.trans h.persistence
  threshold := k.threshold.trans h.threshold
  locked := k.locked.trans h.locked
  fresh := k.fresh.trans h.fresh
  pool := k.pool.trans h.pool
  evs := k.evs.trans h.evs
  bd b := by
    obtain ⟨a1, a2, a3, a4, a5⟩ := h.bd b
    obtain ⟨b1, b2, b3, b4, b5⟩ := k.bd b
    exact ⟨b1.trans a1, b2.trans a2, b3.trans a3, b4.trans a4, b5.trans a5⟩
  ar r := by
    obtain ⟨a1, a2, a3, a4, a5, a6⟩ := h.ar r
    obtain ⟨b1, b2, b3, b4, b5, b6⟩ := k.ar r
    exact ⟨b1.trans a1, b2.trans a2, b3.trans a3, b4.trans a4, b5.trans a5, b6.trans a6⟩
  live r := (k.live r).trans (h.live r)
  stamps f := k.stamps (h.stamps f)
  restamp r := by
    have ht : Sp.thr t r ↔ Sp.thr s r := by simp only [Sp.thr, (h.ar r).2.2.1, (h.bd _).2.2.1]
    rcases k.restamp r with e | ⟨e1, e2⟩
    · rw [e]; exact h.restamp r
    · right; exact ⟨ht.1 e1, by rw [e2, h.stamp]⟩

theorem Quiet.thr {s s' : St K} (h : Quiet s s') (r : Nat) : thr s' r ↔ thr s r := by
  simp only [Sp.thr, (h.ar r).2.2.1, (h.bd _).2.2.1]

theorem SameAll.live {s s' : St K} (h : SameAll s s') (r : Nat) : live s' r ↔ live s r := by
  simp only [Sp.live, Sp.thr, h.cached, (h.ar r).2.2.1, (h.bd _).2.2.2.2.1]

theorem SameI.quiet {s s' : St K} (h : SameI s s') : Quiet s s' := by
  have e := h.rest
  have hl := fun r => h.all.live r
  constructor
  case bd => intro b; obtain ⟨a1, a2, a3, a4, a5, a6, a7⟩ := h.bd b; exact ⟨a1, a4, a5, a6, a7⟩
  case live => exact hl
  case ar => intro r; rw [e]; exact ⟨rfl, rfl, rfl, rfl, rfl, rfl⟩
  case stamps => rw [e]; exact fun h => h
  case restamp => rw [e]; exact fun r => Or.inl rfl
  all_goals (rw [e])

theorem off_erase {s s' : St K} {T : List Nat} {b : Nat} (hT : T.Nodup) (hb : (s.bd b).root = none)
    (hr : ∀ c, (s'.bd c).root = (s.bd c).root) (c : Nat) : off s' (T.erase b) c ↔ (off s T c ∧ c ≠ b) := by
  simp only [off, hr, hT.mem_erase_iff]
  constructor
  · rintro (h | ⟨h1, h2⟩)
    · exact ⟨Or.inl h, by rintro rfl; exact h hb⟩
    · exact ⟨Or.inr h2, h1⟩
  · rintro ⟨h | h, h2⟩
    · exact Or.inl h
    · exact Or.inr ⟨h2, h⟩

theorem Together.erase {s s' : St K} {T : List Nat} {b : Nat} (hT : T.Nodup) (hb : (s.bd b).root = none)
    (hr : ∀ c, (s'.bd c).root = (s.bd c).root) (hk : ∀ c, (s'.bd c).kind = (s.bd c).kind) {x y : Nat} (g : Together s T x y) :
    Together s' (T.erase b) x y := by
  intro r h1 h2
  rw [hr] at h2
  have hx : x ≠ b := by rintro rfl; rw [hb] at h2; simp at h2
  have hx' : x ∉ T := fun h => h1 (hT.mem_erase_iff.2 ⟨hx, h⟩)
  rw [hk, hr]
  rcases g r hx' h2 with g | ⟨g1, g2⟩
  · exact Or.inl g
  · exact Or.inr ⟨fun h => g1 (List.mem_of_mem_erase h), g2⟩

/-- The body that moves a collision or joint, if it is one of the two and not static. -/
theorem owned_iff {s : St K} {b x y : Nat} (hk : (s.bd b).kind = .dynamic) :
    ((x = b ∨ y = b) ∧ (b = x ∨ (s.bd x).kind = .static)) ↔ owner s x y = b := by
  unfold owner
  by_cases h : (s.bd x).kind = .static
  · rw [if_pos h]
    constructor
    · rintro ⟨h1 | h1, _⟩
      · subst h1; rw [hk] at h; cases h
      · exact h1
    · intro h1; exact ⟨Or.inr h1, Or.inr h⟩
  · rw [if_neg h]
    constructor
    · rintro ⟨_, h1 | h1⟩
      · exact h1.symm
      · exact absurd h1 h
    · intro h1; exact ⟨Or.inl h1, Or.inl h1.symm⟩

theorem mem_ownedCons {s : St K} {T : List Nat} (J : JointsI s T) {b c : Nat} (hk : (s.bd b).kind = .dynamic) :
    c ∈ ownedCons s b (s.bd b).cons ↔ ((s.cn c).space = true ∧ owner s (s.cn c).a (s.cn c).b = b) := by
  simp only [ownedCons, List.mem_filter, decide_eq_true_eq, J.list b c, and_assoc, owned_iff hk]

theorem mem_ownedArbs {s : St K} {T P : List Nat} (A : ArbsI s T P) {b r : Nat} (hk : (s.bd b).kind = .dynamic) :
    r ∈ ownedArbs s b (s.bd b).arbs ↔ (thr s r ∧ owner s (s.ar r).a (s.ar r).b = b) := by
  simp only [ownedArbs, List.mem_filter, decide_eq_true_eq, A.list b r, and_assoc, owned_iff hk]

theorem Ar.isPair_comm_self (r q : Ar) : r.isPair q.sa q.sb = q.isPair r.sa r.sb := by
  rw [Bool.eq_iff_iff]
  simp only [Ar.isPair, Bool.or_eq_true, Bool.and_eq_true, decide_eq_true_eq]
  constructor
  · rintro (⟨h1, h2⟩ | ⟨h1, h2⟩)
    · exact Or.inl ⟨h1.symm, h2.symm⟩
    · exact Or.inr ⟨h2.symm, h1.symm⟩
  · rintro (⟨h1, h2⟩ | ⟨h1, h2⟩)
    · exact Or.inl ⟨h1.symm, h2.symm⟩
    · exact Or.inr ⟨h2.symm, h1.symm⟩

/-- `Space.Activate` on a body on its way to being awake. -/
theorem wakeBody_eq {s : St K} {sl T P : List Nat} (I : Inv s sl T P) {b : Nat} (hb : b ∈ T) :
    wakeBody s b = some { s with
      dyn := s.dyn ++ [b]
      statIdx := s.statIdx.diff (s.bd b).shapes
      dynIdx := s.dynIdx ++ (s.bd b).shapes
      arbiters := s.arbiters ++ ownedArbs s b (s.bd b).arbs
      cached := (ownedArbs s b (s.bd b).arbs).reverse ++ s.cached
      ar := fun x => if x ∈ ownedArbs s b (s.bd b).arbs then { s.ar x with stamp := s.stamp } else s.ar x
      cons := s.cons ++ ownedCons s b (s.bd b).cons } := by
  have hk := (I.groups.trans b hb).1
  have hoff : off s T b := Or.inr hb
  unfold wakeBody
  rw [wakeShapes_eq _ _ (I.shapes.attN b)]
  · simp only
    rw [wakeArbs_eq]
    · rw [wakeCons_eq]; rfl
    · exact I.arbs.listN b
    · intro r hr
      have hr' : r ∈ ownedArbs s b (s.bd b).arbs := hr
      rw [mem_ownedArbs I.arbs hk] at hr'
      show s.lookup (s.ar r).sa (s.ar r).sb = none
      unfold St.lookup
      rw [List.find?_eq_none]
      intro q hq hp
      have e := I.arbs.uniq q r (Or.inl hq) (Or.inr hr'.1) hp
      subst e
      have := (I.arbs.cach q hr'.1).1 hq
      rw [hr'.2] at this
      exact this hoff
    · intro r hr q hq hp
      have hr' : r ∈ ownedArbs s b (s.bd b).arbs := hr
      have hq' : q ∈ ownedArbs s b (s.bd b).arbs := hq
      rw [mem_ownedArbs I.arbs hk] at hr' hq'
      exact I.arbs.uniq r q (Or.inr hr'.1) (Or.inr hq'.1) hp
  · intro x hx
    show x ∈ s.statIdx
    rw [I.shapes.stat]
    refine ⟨I.shapes.full b x hoff hx, ?_⟩
    rw [I.shapes.att b x hx]
    exact Or.inr hoff

/-- After `Space.Activate` the bookkeeping is right with the body awake. -/
theorem wakeBody_inv {s : St K} {sl T P : List Nat} (I : Inv s sl T P) {b : Nat} (hb : b ∈ T) (hroot : (s.bd b).root = none) :
    ∃ s', wakeBody s b = some s' ∧ Inv s' sl (T.erase b) P ∧ Quiet s s' ∧ s'.bd = s.bd ∧ s'.sleeping = s.sleeping ∧ s'.roused = s.roused := by
  have hk := (I.groups.trans b hb).1
  have hsp := (I.groups.trans b hb).2
  have hoff : off s T b := Or.inr hb
  have hT := I.groups.nodupT
  refine ⟨_, wakeBody_eq I hb, ?_, ?_, rfl, rfl, rfl⟩
  swap
  · constructor
    case bd => intro c; exact ⟨rfl, rfl, rfl, rfl, rfl⟩
    case ar => intro r; simp only; split <;> exact ⟨rfl, rfl, rfl, rfl, rfl, rfl⟩
    case live =>
      intro r
      simp only [live, thr, List.mem_append, List.mem_reverse]
      have e : ∀ x, ((if x ∈ ownedArbs s b (s.bd b).arbs then { s.ar x with stamp := s.stamp } else s.ar x) : Ar).a = (s.ar x).a := by
        intro x; split <;> rfl
      rw [e]
      constructor
      · rintro ((h | h) | h)
        · exact Or.inr ((mem_ownedArbs I.arbs hk).1 h).1
        · exact Or.inl h
        · exact Or.inr h
      · rintro (h | h)
        · exact Or.inl (Or.inr h)
        · exact Or.inr h
    case stamps =>
      intro h r hr
      simp only [List.mem_append] at hr ⊢
      by_cases ho : r ∈ ownedArbs s b (s.bd b).arbs
      · rw [if_pos ho]
      · rw [if_neg ho]; exact h r (hr.resolve_right ho)
    case restamp =>
      intro r
      by_cases ho : r ∈ ownedArbs s b (s.bd b).arbs
      · right; exact ⟨((mem_ownedArbs I.arbs hk).1 ho).1, by simp only [if_pos ho]⟩
      · left; simp only [if_neg ho]
    all_goals rfl
  generalize hs' : ({ s with
      dyn := s.dyn ++ [b]
      statIdx := s.statIdx.diff (s.bd b).shapes
      dynIdx := s.dynIdx ++ (s.bd b).shapes
      arbiters := s.arbiters ++ ownedArbs s b (s.bd b).arbs
      cached := (ownedArbs s b (s.bd b).arbs).reverse ++ s.cached
      ar := fun x => if x ∈ ownedArbs s b (s.bd b).arbs then { s.ar x with stamp := s.stamp } else s.ar x
      cons := s.cons ++ ownedCons s b (s.bd b).cons } : St K) = s'
  have hbd : s'.bd = s.bd := by rw [← hs']
  have hr : ∀ c, (s'.bd c).root = (s.bd c).root := fun c => by rw [hbd]
  have hkk : ∀ c, (s'.bd c).kind = (s.bd c).kind := fun c => by rw [hbd]
  have ho := off_erase (s' := s') hT hroot hr
  have hmT : ∀ c, c ∈ T.erase b ↔ c ≠ b ∧ c ∈ T := fun c => hT.mem_erase_iff
  have hfr : ∀ c, frozen s' (T.erase b) c ↔ (frozen s T c ∧ c ≠ b) := by
    intro c
    simp only [frozen, hbd, ho]
    constructor
    · rintro (h | h)
      · exact ⟨Or.inl h, by rintro rfl; rw [hk] at h; cases h⟩
      · exact ⟨Or.inr h.1, h.2⟩
    · rintro ⟨h | h, h2⟩
      · exact Or.inl h
      · exact Or.inr ⟨h, h2⟩
  refine ⟨?_, ?_, ?_, ?_, ?_⟩
  · -- groups
    have G := I.groups
    refine ⟨G.nodup, hT.erase b, ?_, ?_, ?_, ?_, ?_⟩
    · intro r hrs
      obtain ⟨l, h1, h2, h3⟩ := G.chain r hrs
      refine ⟨l, h1.congr (fun c => by rw [hbd]), h2, fun c => ?_⟩
      rw [h3 c, hr, hmT]
      constructor
      · rintro ⟨h, h'⟩; exact ⟨fun h'' => h h''.2, h'⟩
      · rintro ⟨h, h'⟩
        refine ⟨fun h'' => h ⟨?_, h''⟩, h'⟩
        rintro rfl; rw [hroot] at h'; cases h'
    · intro c r h1 h2
      rw [hr] at h2; rw [hbd]
      refine G.root c r (fun h => h1 ((hmT c).2 ⟨?_, h⟩)) h2
      rintro rfl; rw [hroot] at h2; cases h2
    · intro c hc; rw [hbd]; exact G.trans c ((hmT c).1 hc).2
    · rw [hbd]; exact G.next
    · rw [hbd, ← hs']; exact G.nb
  · -- bodies
    have B := I.blists
    have hd : s'.dyn = s.dyn ++ [b] := by rw [← hs']
    have hs : s'.stat = s.stat := by rw [← hs']
    refine ⟨?_, by rw [hs]; exact B.statN, ?_, ?_⟩
    · rw [hd, List.nodup_append]
      refine ⟨B.dynN, by simp, ?_⟩
      intro c hc d hd
      simp only [List.mem_singleton] at hd
      subst hd
      rintro rfl
      exact ((B.dyn c).1 hc).2.2 hoff
    · intro c
      rw [hd, hbd, List.mem_append, B.dyn, ho, List.mem_singleton]
      constructor
      · rintro (⟨h1, h2, h3⟩ | rfl)
        · exact ⟨h1, h2, fun h => h3 h.1⟩
        · exact ⟨hsp, by rw [hk]; simp, fun h => h.2 rfl⟩
      · rintro ⟨h1, h2, h3⟩
        by_cases e : c = b
        · exact Or.inr e
        · exact Or.inl ⟨h1, h2, fun h => h3 ⟨h, e⟩⟩
    · intro c; rw [hs, hbd]; exact B.stat c
  · -- shapes
    have S := I.shapes
    have hd : s'.dynIdx = s.dynIdx ++ (s.bd b).shapes := by rw [← hs']
    have hs : s'.statIdx = s.statIdx.diff (s.bd b).shapes := by rw [← hs']
    have hsh : s'.sh = s.sh := by rw [← hs']
    have hmem : ∀ x, x ∈ (s.bd b).shapes ↔ ((s.sh x).space = true ∧ (s.sh x).body = b) := by
      intro x
      constructor
      · intro h; exact ⟨S.full b x hoff h, S.att b x h⟩
      · rintro ⟨h1, h2⟩; rw [← h2]; exact S.own x h1
    refine ⟨?_, ?_, ?_, ?_, ?_, ?_, ?_, ?_, ?_⟩
    · rw [hd, List.nodup_append]
      refine ⟨S.dynN, S.attN b, ?_⟩
      rintro x hx y hy rfl
      have h1 := (S.dyn x).1 hx
      have h2 := (hmem x).1 hy
      rw [h2.2] at h1
      exact h1.2 (Or.inr hoff)
    · rw [hs]; exact S.statN.diff
    · intro x
      rw [hd, List.mem_append, S.dyn, hmem, hsh, hfr]
      constructor
      · rintro (⟨h1, h2⟩ | ⟨h1, h2⟩)
        · exact ⟨h1, fun h => h2 h.1⟩
        · exact ⟨h1, fun h => h.2 h2⟩
      · rintro ⟨h1, h2⟩
        by_cases e : (s.sh x).body = b
        · exact Or.inr ⟨h1, e⟩
        · exact Or.inl ⟨h1, fun h => h2 ⟨h, e⟩⟩
    · intro x
      rw [hs, S.statN.mem_sdiff_iff, S.stat, hmem, hsh, hfr]
      constructor
      · rintro ⟨⟨h1, h2⟩, h3⟩
        exact ⟨h1, h2, fun h => h3 ⟨h1, h⟩⟩
      · rintro ⟨h1, h2, h3⟩
        exact ⟨⟨h1, h2⟩, fun h => h3 h.2⟩
    · rw [hbd, hsh]; exact S.att
    · rw [hbd]; exact S.attN
    · rw [hbd, hsh]; exact S.own
    · intro c x h; rw [hbd, hsh]; exact S.full c x ((ho c).1 h).1
    · rw [hbd, hsh]; exact S.home
  · -- joints
    have J := I.joints
    have hc : s'.cons = s.cons ++ ownedCons s b (s.bd b).cons := by rw [← hs']
    have hcn : s'.cn = s.cn := by rw [← hs']
    refine ⟨?_, ?_, ?_, ?_, ?_, ?_, ?_⟩
    · rw [hc, List.nodup_append]
      refine ⟨J.nodup, (J.listN b).filter _, ?_⟩
      rintro c hc d hd rfl
      have h1 := (mem_ownedCons J hk).1 hd
      have h2 := (J.mem c).1 hc
      rw [h1.2] at h2
      exact h2.2 hoff
    · intro c
      rw [hc, List.mem_append, J.mem, mem_ownedCons J hk, hcn, ho, owner_congr hkk]
      constructor
      · rintro (⟨h1, h2⟩ | ⟨h1, h2⟩)
        · exact ⟨h1, fun h => h2 h.1⟩
        · exact ⟨h1, fun h => h.2 h2⟩
      · rintro ⟨h1, h2⟩
        by_cases e : owner s (s.cn c).a (s.cn c).b = b
        · exact Or.inr ⟨h1, e⟩
        · exact Or.inl ⟨h1, fun h => h2 ⟨h, e⟩⟩
    · rw [hbd, hcn]; exact J.list
    · rw [hbd]; exact J.listN
    · rw [hcn]; exact J.ne
    · rw [hbd, hcn]; exact J.home
    · rw [hcn]; intro c h
      exact ⟨(J.group c h).1.erase hT hroot hr hkk, (J.group c h).2.erase hT hroot hr hkk⟩
  · -- collisions
    have A := I.arbs
    have ha : s'.arbiters = s.arbiters ++ ownedArbs s b (s.bd b).arbs := by rw [← hs']
    have hc : s'.cached = (ownedArbs s b (s.bd b).arbs).reverse ++ s.cached := by rw [← hs']
    have hsh : s'.sh = s.sh := by rw [← hs']
    have hfre : s'.fresh = s.fresh := by rw [← hs']
    have hpo : s'.pool = s.pool := by rw [← hs']
    have har : ∀ r, (s'.ar r).sa = (s.ar r).sa ∧ (s'.ar r).sb = (s.ar r).sb ∧ (s'.ar r).a = (s.ar r).a ∧ (s'.ar r).b = (s.ar r).b := by
      intro r; rw [← hs']; simp only; split <;> exact ⟨rfl, rfl, rfl, rfl⟩
    have hmo := fun r => mem_ownedArbs (r := r) A hk
    have ht : ∀ r, thr s' r ↔ thr s r := by intro r; simp only [thr, hbd, (har r).2.2.1]
    have hl : ∀ r, live s' r ↔ live s r := by
      intro r
      simp only [live, ht, hc, List.mem_append, List.mem_reverse, hmo]
      constructor
      · rintro ((h | h) | h)
        · exact Or.inr h.1
        · exact Or.inl h
        · exact Or.inr h
      · rintro (h | h)
        · exact Or.inl (Or.inr h)
        · exact Or.inr h
    have hown : ∀ r, owner s' (s'.ar r).a (s'.ar r).b = owner s (s.ar r).a (s.ar r).b := by
      intro r; rw [owner_congr hkk, (har r).2.2.1, (har r).2.2.2]
    have hnd := A.listN b
    have hndo : (ownedArbs s b (s.bd b).arbs).Nodup := hnd.filter _
    have hnotc : ∀ r, thr s r → owner s (s.ar r).a (s.ar r).b = b → r ∉ s.cached := by
      intro r h1 h2 h3
      have := (A.cach r h1).1 h3
      rw [h2] at this; exact this hoff
    refine ⟨?_, ?_, A.pendN, ?_, ?_, ?_, ?_, ?_, ?_, ?_, ?_, ?_, ?_⟩
    · rw [ha, List.nodup_append]
      refine ⟨A.arbN, hndo, ?_⟩
      rintro r hr q hq rfl
      have h1 := (hmo r).1 hq
      rcases (A.arb r).1 hr with h | h
      · exact (A.pend r h).2 h1.1
      · rw [h1.2] at h; exact h.2 hoff
    · rw [hc, List.nodup_append]
      refine ⟨List.nodup_reverse.2 hndo, A.cachedN, ?_⟩
      rintro r hr q hq rfl
      rw [List.mem_reverse, hmo] at hr
      exact hnotc r hr.1 hr.2 hq
    · intro r
      rw [ha, List.mem_append, A.arb, hmo, ht, hown, ho]
      constructor
      · rintro ((h | h) | h)
        · exact Or.inl h
        · exact Or.inr ⟨h.1, fun k => h.2 k.1⟩
        · exact Or.inr ⟨h.1, fun k => k.2 h.2⟩
      · rintro (h | ⟨h1, h2⟩)
        · exact Or.inl (Or.inl h)
        · by_cases e : owner s (s.ar r).a (s.ar r).b = b
          · exact Or.inr ⟨h1, e⟩
          · exact Or.inl (Or.inr ⟨h1, fun h => h2 ⟨h, e⟩⟩)
    · intro c r; rw [hbd, ht, (har r).2.2.1, (har r).2.2.2]; exact A.list c r
    · rw [hbd]; exact A.listN
    · intro r hrP
      rw [ht, hc, List.mem_append]
      exact ⟨Or.inr (A.pend r hrP).1, (A.pend r hrP).2⟩
    · intro r
      rw [ht, hc, List.mem_append, List.mem_reverse, hmo, hown, ho]
      intro h1
      rw [A.cach r h1]
      constructor
      · rintro (h | h)
        · exact fun k => k.2 h.2
        · exact fun k => h k.1
      · intro h
        by_cases e : owner s (s.ar r).a (s.ar r).b = b
        · exact Or.inl ⟨h1, e⟩
        · exact Or.inr (fun k => h ⟨k, e⟩)
    · intro r; rw [hl, (har r).2.2.1, (har r).2.2.2]; exact A.ne r
    · intro r; rw [hl, hsh, (har r).1, (har r).2.1, (har r).2.2.1, (har r).2.2.2]; exact A.shp r
    · intro r r'
      simp only [Ar.isPair]
      rw [hl, hl, (har r).1, (har r).2.1, (har r').1, (har r').2.1]; exact A.uniq r r'
    · intro r; rw [ht, (har r).2.2.1, (har r).2.2.2]
      intro h
      exact ⟨(A.group r h).1.erase hT hroot hr hkk, (A.group r h).2.erase hT hroot hr hkk⟩
    · intro r; rw [hl, hfre, hpo]; exact A.ids r

/-! ### Waking a whole group -/

theorem off_congrT {s : St K} {T T' : List Nat} (h : ∀ b, b ∈ T' ↔ b ∈ T) (b : Nat) : off s T' b ↔ off s T b := by
  simp only [off, h]

theorem Together.congrT {s : St K} {T T' : List Nat} (h : ∀ b, b ∈ T' ↔ b ∈ T) {x y : Nat} (g : Together s T x y) : Together s T' x y := by
  intro r h1 h2
  rw [h] at h1 ⊢
  exact g r h1 h2

/-- Only which bodies are on their way matters. -/
theorem Inv.congrT {s : St K} {sl T T' P : List Nat} (h : ∀ b, b ∈ T' ↔ b ∈ T) (hn : T'.Nodup) (I : Inv s sl T P) : Inv s sl T' P := by
  have ho := off_congrT (s := s) h
  have hf : ∀ b, frozen s T' b ↔ frozen s T b := fun b => by simp only [frozen, ho]
  refine ⟨⟨I.groups.nodup, hn, ?_, ?_, ?_, I.groups.next, I.groups.nb⟩, ⟨I.blists.dynN, I.blists.statN, ?_, I.blists.stat⟩,
    ⟨I.shapes.dynN, I.shapes.statN, ?_, ?_, I.shapes.att, I.shapes.attN, I.shapes.own, ?_, I.shapes.home⟩,
    ⟨I.joints.nodup, ?_, I.joints.list, I.joints.listN, I.joints.ne, I.joints.home, ?_⟩,
    ⟨I.arbs.arbN, I.arbs.cachedN, I.arbs.pendN, ?_, I.arbs.list, I.arbs.listN, I.arbs.pend, ?_, I.arbs.ne, I.arbs.shp, I.arbs.uniq, ?_, I.arbs.ids⟩⟩
  · simp only [h]; exact I.groups.chain
  · simp only [h]; exact I.groups.root
  · simp only [h]; exact I.groups.trans
  · simp only [ho]; exact I.blists.dyn
  · simp only [hf]; exact I.shapes.dyn
  · simp only [hf]; exact I.shapes.stat
  · simp only [ho]; exact I.shapes.full
  · simp only [ho]; exact I.joints.mem
  · intro c hc; exact ⟨(I.joints.group c hc).1.congrT h, (I.joints.group c hc).2.congrT h⟩
  · simp only [ho]; exact I.arbs.arb
  · simp only [ho]; exact I.arbs.cach
  · intro c hc; exact ⟨(I.arbs.group c hc).1.congrT h, (I.arbs.group c hc).2.congrT h⟩

/-- A sleeping group may be taken to be on its way to being awake. -/
theorem Inv.rouse {s : St K} {sl T P l : List Nat} {r : Nat} (I : Inv s sl T P) (hr : r ∈ sl) (hln : l.Nodup)
    (hl : ∀ b, b ∈ l ↔ (b ∉ T ∧ (s.bd b).root = some r)) : Inv s (sl.erase r) (T ++ l) P := by
  have hm : ∀ b, b ∈ T ++ l ↔ (b ∈ T ∨ b ∈ l) := fun b => List.mem_append
  have ho : ∀ b, off s (T ++ l) b ↔ off s T b := by
    intro b
    simp only [off, hm]
    constructor
    · rintro (h | h | h)
      · exact Or.inl h
      · exact Or.inr h
      · left; rw [((hl b).1 h).2]; simp
    · rintro (h | h)
      · exact Or.inl h
      · exact Or.inr (Or.inl h)
  have hf : ∀ b, frozen s (T ++ l) b ↔ frozen s T b := fun b => by simp only [frozen, ho]
  have ht : ∀ x y, Together s T x y → Together s (T ++ l) x y := by
    intro x y g q h1 h2
    rw [hm] at h1
    push Not at h1
    have hq : q ≠ r := by
      rintro rfl; exact h1.2 ((hl x).2 ⟨h1.1, h2⟩)
    rcases g q h1.1 h2 with h | ⟨h3, h4⟩
    · exact Or.inl h
    · refine Or.inr ⟨?_, h4⟩
      rw [hm]
      rintro (h | h)
      · exact h3 h
      · rw [((hl y).1 h).2] at h4; exact hq (Option.some.inj h4).symm
  have G := I.groups
  refine ⟨⟨G.nodup.erase r, ?_, ?_, ?_, ?_, G.next, G.nb⟩, ⟨I.blists.dynN, I.blists.statN, ?_, I.blists.stat⟩,
    ⟨I.shapes.dynN, I.shapes.statN, ?_, ?_, I.shapes.att, I.shapes.attN, I.shapes.own, ?_, I.shapes.home⟩,
    ⟨I.joints.nodup, ?_, I.joints.list, I.joints.listN, I.joints.ne, I.joints.home, ?_⟩,
    ⟨I.arbs.arbN, I.arbs.cachedN, I.arbs.pendN, ?_, I.arbs.list, I.arbs.listN, I.arbs.pend, ?_, I.arbs.ne, I.arbs.shp, I.arbs.uniq, ?_, I.arbs.ids⟩⟩
  · rw [List.nodup_append]
    refine ⟨G.nodupT, hln, ?_⟩
    rintro x hx y hy rfl
    exact ((hl x).1 hy).1 hx
  · intro q hq
    rw [G.nodup.mem_erase_iff] at hq
    obtain ⟨l', h1, h2, h3⟩ := G.chain q hq.2
    refine ⟨l', h1, h2, fun b => ?_⟩
    rw [h3 b, hm]
    constructor
    · rintro ⟨h4, h5⟩
      refine ⟨?_, h5⟩
      rintro (h | h)
      · exact h4 h
      · rw [((hl b).1 h).2] at h5; exact hq.1 (Option.some.inj h5).symm
    · rintro ⟨h4, h5⟩
      exact ⟨fun h => h4 (Or.inl h), h5⟩
  · intro b q h1 h2
    rw [hm] at h1; push Not at h1
    have := G.root b q h1.1 h2
    refine ⟨?_, this.2⟩
    rw [G.nodup.mem_erase_iff]
    refine ⟨?_, this.1⟩
    rintro rfl; exact h1.2 ((hl b).2 ⟨h1.1, h2⟩)
  · intro b hb
    rcases (hm b).1 hb with h | h
    · exact G.trans b h
    · exact (G.root b r ((hl b).1 h).1 ((hl b).1 h).2).2
  · simp only [ho]; exact I.blists.dyn
  · simp only [hf]; exact I.shapes.dyn
  · simp only [hf]; exact I.shapes.stat
  · simp only [ho]; exact I.shapes.full
  · simp only [ho]; exact I.joints.mem
  · intro c hc; exact ⟨ht _ _ (I.joints.group c hc).1, ht _ _ (I.joints.group c hc).2⟩
  · simp only [ho]; exact I.arbs.arb
  · simp only [ho]; exact I.arbs.cach
  · intro c hc; exact ⟨ht _ _ (I.arbs.group c hc).1, ht _ _ (I.arbs.group c hc).2⟩

/-- Links of a body on its way to being awake do not matter. -/
theorem Inv.clear {s : St K} {sl T P : List Nat} (I : Inv s sl T P) {b : Nat} (hb : b ∈ T) (i : K) :
    Inv (s.setB b fun d => { d with idle := i, root := none, next := none }) sl T P := by
  generalize hs' : (s.setB b fun d => { d with idle := i, root := none, next := none }) = s'
  have hbd : ∀ c, (s'.bd c).kind = (s.bd c).kind ∧ (s'.bd c).shapes = (s.bd c).shapes ∧ (s'.bd c).arbs = (s.bd c).arbs ∧
      (s'.bd c).cons = (s.bd c).cons ∧ (s'.bd c).space = (s.bd c).space := by
    intro c; rw [← hs']; simp only [St.setB]
    split
    · rename_i h; subst h; exact ⟨rfl, rfl, rfl, rfl, rfl⟩
    · exact ⟨rfl, rfl, rfl, rfl, rfl⟩
  have hr : ∀ c, c ≠ b → (s'.bd c).root = (s.bd c).root ∧ (s'.bd c).next = (s.bd c).next := by
    intro c hc; rw [← hs']; simp [St.setB, hc]
  have hrb : (s'.bd b).root = none ∧ (s'.bd b).next = none := by rw [← hs']; simp [St.setB]
  have ho : ∀ c, off s' T c ↔ off s T c := by
    intro c
    by_cases hc : c = b
    · subst hc; exact ⟨fun _ => Or.inr hb, fun _ => Or.inr hb⟩
    · simp only [off, (hr c hc).1]
  have hk := fun c => (hbd c).1
  have hx := fun c => (hbd c).2.1
  have hab := fun c => (hbd c).2.2.1
  have hcn' := fun c => (hbd c).2.2.2.1
  have hsp := fun c => (hbd c).2.2.2.2
  have hf : ∀ c, frozen s' T c ↔ frozen s T c := fun c => by simp only [frozen, ho, hk]
  have how : ∀ x y, owner s' x y = owner s x y := fun x y => by simp only [owner, hk]
  have htg : ∀ x y, Together s T x y → Together s' T x y := by
    intro x y g q h1 h2
    have hx : x ≠ b := by rintro rfl; exact h1 hb
    rw [(hr x hx).1] at h2
    rw [hk]
    rcases g q h1 h2 with h | ⟨h3, h4⟩
    · exact Or.inl h
    · refine Or.inr ⟨h3, ?_⟩
      have : y ≠ b := by rintro rfl; exact h3 hb
      rw [(hr y this).1]; exact h4
  have hfld : s' = { s with bd := s'.bd } := by rw [← hs']; rfl
  have e1 : s'.dyn = s.dyn := by rw [hfld]
  have e2 : s'.stat = s.stat := by rw [hfld]
  have e3 : s'.dynIdx = s.dynIdx := by rw [hfld]
  have e4 : s'.statIdx = s.statIdx := by rw [hfld]
  have e5 : s'.cons = s.cons := by rw [hfld]
  have e6 : s'.arbiters = s.arbiters := by rw [hfld]
  have e7 : s'.cached = s.cached := by rw [hfld]
  have e8 : s'.sh = s.sh := by rw [hfld]
  have e9 : s'.cn = s.cn := by rw [hfld]
  have e10 : s'.ar = s.ar := by rw [hfld]
  have e11 : s'.nb = s.nb := by rw [hfld]
  have e12 : s'.fresh = s.fresh := by rw [hfld]
  have e13 : s'.pool = s.pool := by rw [hfld]
  have ht : ∀ r, thr s' r ↔ thr s r := fun r => by simp only [thr, e10, hab]
  have hlv : ∀ r, live s' r ↔ live s r := fun r => by simp only [live, ht, e7]
  have G := I.groups
  refine ⟨⟨G.nodup, G.nodupT, ?_, ?_, ?_, ?_, ?_⟩, ⟨e1 ▸ I.blists.dynN, e2 ▸ I.blists.statN, ?_, ?_⟩,
    ⟨e3 ▸ I.shapes.dynN, e4 ▸ I.shapes.statN, ?_, ?_, ?_, ?_, ?_, ?_, ?_⟩,
    ⟨e5 ▸ I.joints.nodup, ?_, ?_, ?_, ?_, ?_, ?_⟩,
    ⟨e6 ▸ I.arbs.arbN, e7 ▸ I.arbs.cachedN, I.arbs.pendN, ?_, ?_, ?_, ?_, ?_, ?_, ?_, ?_, ?_, ?_⟩⟩
  · intro q hq
    obtain ⟨l, h1, h2, h3⟩ := G.chain q hq
    have hbl : ∀ c ∈ l, c ≠ b := by rintro c hc rfl; exact ((h3 c).1 hc).1 hb
    refine ⟨l, h1.congr_mem _ _ (fun c hc => (hr c (hbl c hc)).2), h2, fun c => ?_⟩
    by_cases hc : c = b
    · subst hc
      rw [h3]
      constructor
      · intro h; exact absurd hb h.1
      · intro h; exact absurd hb h.1
    · rw [(hr c hc).1]; exact h3 c
  · intro c q h1 h2
    have hc : c ≠ b := by rintro rfl; exact h1 hb
    rw [(hr c hc).1] at h2
    rw [hk, hsp]; exact G.root c q h1 h2
  · intro c; rw [hk, hsp]; exact G.trans c
  · intro c
    by_cases hc : c = b
    · subst hc; intro _; exact hrb.2
    · rw [(hr c hc).1, (hr c hc).2]; exact G.next c
  · intro c; rw [hsp, e11]; exact G.nb c
  · intro c; rw [e1, hsp, hk, ho]; exact I.blists.dyn c
  · intro c; rw [e2, hsp, hk]; exact I.blists.stat c
  · intro c; rw [e3, e8, hf]; exact I.shapes.dyn c
  · intro c; rw [e4, e8, hf]; exact I.shapes.stat c
  · intro c x; rw [hx, e8]; exact I.shapes.att c x
  · intro c; rw [hx]; exact I.shapes.attN c
  · intro x; rw [e8, hx]; exact I.shapes.own x
  · intro c x; rw [ho, hx, e8]; exact I.shapes.full c x
  · intro x; rw [e8, hk, hsp]; exact I.shapes.home x
  · intro c; rw [e5, e9, ho, how]; exact I.joints.mem c
  · intro c x; rw [hcn', e9]; exact I.joints.list c x
  · intro c; rw [hcn']; exact I.joints.listN c
  · rw [e9]; exact I.joints.ne
  · intro c; rw [e9, hk, hsp, hk, hsp]; exact I.joints.home c
  · rw [e9]; intro c h; exact ⟨htg _ _ (I.joints.group c h).1, htg _ _ (I.joints.group c h).2⟩
  · intro r; rw [e6, ht, e10, ho, how]; exact I.arbs.arb r
  · intro c r; rw [hab, ht, e10]; exact I.arbs.list c r
  · intro c; rw [hab]; exact I.arbs.listN c
  · intro r h; rw [e7, ht]; exact I.arbs.pend r h
  · intro r; rw [e7, ht, e10, ho, how]; exact I.arbs.cach r
  · intro r; rw [hlv, e10]; exact I.arbs.ne r
  · intro r; rw [hlv, e10, e8]; exact I.arbs.shp r
  · intro r r'; rw [hlv, hlv, e10]; exact I.arbs.uniq r r'
  · intro r; rw [ht, e10]; intro h; exact ⟨htg _ _ (I.arbs.group r h).1, htg _ _ (I.arbs.group r h).2⟩
  · intro r; rw [hlv, e12, e13]; exact I.arbs.ids r

theorem Quiet.clear (s : St K) (b : Nat) (i : K) : Quiet s (s.setB b fun d => { d with idle := i, root := none, next := none }) := by
  have hbd : ∀ c, ((s.setB b fun d => { d with idle := i, root := none, next := none }).bd c).kind = (s.bd c).kind ∧
      ((s.setB b fun d => { d with idle := i, root := none, next := none }).bd c).shapes = (s.bd c).shapes ∧
      ((s.setB b fun d => { d with idle := i, root := none, next := none }).bd c).arbs = (s.bd c).arbs ∧
      ((s.setB b fun d => { d with idle := i, root := none, next := none }).bd c).cons = (s.bd c).cons ∧
      ((s.setB b fun d => { d with idle := i, root := none, next := none }).bd c).space = (s.bd c).space := by
    intro c; simp only [St.setB]
    split
    · rename_i h; subst h; exact ⟨rfl, rfl, rfl, rfl, rfl⟩
    · exact ⟨rfl, rfl, rfl, rfl, rfl⟩
  constructor
  case bd => exact hbd
  case ar => intro r; exact ⟨rfl, rfl, rfl, rfl, rfl, rfl⟩
  case live =>
    intro r
    simp only [Sp.live, Sp.thr, (hbd _).2.2.1]
    exact Iff.rfl
  case stamps => exact fun h => h
  case restamp => exact fun r => Or.inl rfl
  all_goals rfl

section
variable [Zero K]

/-- Waking the members of a group one after the other, in an unlocked space. -/
theorem activateLoop_unlocked : ∀ (l : List Nat) (n : Nat) (s : St K) (o : Option Nat) (sl T P : List Nat), s.locked = 0 →
    Inv s sl T P → Path s o l → l.Nodup → (∀ b ∈ l, b ∈ T) → l.length < n →
    ∃ s', activateLoop n s o = some s' ∧ Inv s' sl (T.diff l) P ∧ Quiet s s' ∧ s'.sleeping = s.sleeping ∧ s'.roused = s.roused ∧
      (∀ b, b ∉ l → s'.bd b = s.bd b) ∧ ∀ b ∈ l, (s'.bd b).root = none ∧ (s'.bd b).idle = 0
  | [], n + 1, s, none, sl, T, P, _, I, _, _, _, _ =>
    ⟨s, rfl, by simpa using I, Quiet.refl s, rfl, rfl, fun _ _ => rfl, by simp⟩
  | [], n, s, some b, sl, T, P, _, _, h, _, _, _ => h.elim
  | _ :: _, n, s, none, sl, T, P, _, _, h, _, _, _ => h.elim
  | c :: l, 0, s, some b, sl, T, P, _, _, _, _, _, h => by simp at h
  | c :: l, n + 1, s, some b, sl, T, P, hL, I, ⟨e, hp⟩, hn, hT, hlen => by
    subst e
    have hn' := List.nodup_cons.1 hn
    have hb := hT b (by simp)
    have I1 := I.clear hb (0 : K)
    have hq1 := Quiet.clear s b (0 : K)
    set s1 := s.setB b fun d => { d with idle := 0, root := none, next := none } with hs1
    have hroot : (s1.bd b).root = none := by simp [hs1, St.setB]
    have hid : (s1.bd b).idle = 0 := by simp [hs1, St.setB]
    have hother : ∀ c, c ≠ b → s1.bd c = s.bd c := by intro c hc; simp [hs1, St.setB, hc]
    obtain ⟨s2, e2, I2, hq2, hbd2, hsl2, hro2⟩ := wakeBody_inv I1 hb hroot
    have hL1 : s1.locked = 0 := hL
    have hact : spaceActivate s1 b = some s2 := by
      unfold spaceActivate; rw [if_neg (by simp [hL1]), e2]
    have hp2 : Path s2 (s.bd b).next l := by
      refine Path.congr_mem _ _ ?_ hp
      intro c hc
      rw [hbd2, hother c (by rintro rfl; exact hn'.1 hc)]
    obtain ⟨s3, e3, I3, hq3, hsl3, hro3, ho3, hi3⟩ := activateLoop_unlocked l n s2 (s.bd b).next sl (T.erase b) P
      (by rw [hq2.locked]; exact hL1) I2 hp2 hn'.2
      (by intro c hc; exact (I.groups.nodupT.mem_erase_iff).2 ⟨by rintro rfl; exact hn'.1 hc, hT c (by simp [hc])⟩)
      (by simpa using hlen)
    refine ⟨s3, ?_, ?_, (hq1.trans hq2).trans hq3, hsl3.trans hsl2, hro3.trans hro2, ?_, ?_⟩
    · simp only [activateLoop]
      rw [← hs1, hact]
      exact e3
    · rw [List.diff_cons]; exact I3
    · intro c hc
      have hcb : c ≠ b := by rintro rfl; simp at hc
      rw [ho3 c (by intro h; exact hc (by simp [h])), hbd2, hother c hcb]
    · intro c hc
      rcases List.mem_cons.1 hc with rfl | hc
      · rw [ho3 _ hn'.1, hbd2]; exact ⟨hroot, hid⟩
      · exact hi3 c hc

/-- Waking the members of a group in a locked space: they are put on the list of bodies to wake. -/
theorem activateLoop_locked : ∀ (l : List Nat) (n : Nat) (s : St K) (o : Option Nat) (sl T P : List Nat), s.locked ≠ 0 →
    Inv s sl T P → Path s o l → l.Nodup → (∀ b ∈ l, b ∈ T) → (∀ b ∈ l, b ∉ s.roused) → l.length < n →
    ∃ s', activateLoop n s o = some s' ∧ Inv s' sl T P ∧ Quiet s s' ∧ s'.sleeping = s.sleeping ∧ s'.roused = s.roused ++ l ∧
      (∀ b, b ∉ l → s'.bd b = s.bd b) ∧ ∀ b ∈ l, (s'.bd b).root = none ∧ (s'.bd b).idle = 0
  | [], n + 1, s, none, sl, T, P, _, I, _, _, _, _, _ =>
    ⟨s, rfl, I, Quiet.refl s, rfl, by simp, fun _ _ => rfl, by simp⟩
  | [], n, s, some b, sl, T, P, _, _, h, _, _, _, _ => h.elim
  | _ :: _, n, s, none, sl, T, P, _, _, h, _, _, _, _ => h.elim
  | c :: l, 0, s, some b, sl, T, P, _, _, _, _, _, _, h => by simp at h
  | c :: l, n + 1, s, some b, sl, T, P, hL, I, ⟨e, hp⟩, hn, hT, hR, hlen => by
    subst e
    have hn' := List.nodup_cons.1 hn
    have hb := hT b (by simp)
    have I1 := I.clear hb (0 : K)
    have hq1 := Quiet.clear s b (0 : K)
    set s1 := s.setB b fun d => { d with idle := 0, root := none, next := none } with hs1
    have hroot : (s1.bd b).root = none := by simp [hs1, St.setB]
    have hid : (s1.bd b).idle = 0 := by simp [hs1, St.setB]
    have hother : ∀ c, c ≠ b → s1.bd c = s.bd c := by intro c hc; simp [hs1, St.setB, hc]
    have hbr : b ∉ s1.roused := hR b (by simp)
    have hact : spaceActivate s1 b = some { s1 with roused := s1.roused ++ [b] } := by
      unfold spaceActivate; rw [if_pos (by exact hL), if_neg hbr]
    set s2 : St K := { s1 with roused := s1.roused ++ [b] } with hs2
    have I2 : Inv s2 sl T P := I1.congr (by constructor <;> intros <;> simp [hs2, SameB])
    have hq2 : Quiet s1 s2 := by
      constructor <;> intros <;> first | rfl | (rename_i h r hr; exact h r hr) | exact Or.inl rfl | exact ⟨rfl, rfl, rfl, rfl, rfl⟩ | exact ⟨rfl, rfl, rfl, rfl, rfl, rfl⟩ | exact Iff.rfl
    have hp2 : Path s2 (s.bd b).next l := by
      refine Path.congr_mem _ _ ?_ hp
      intro c hc
      show (s1.bd c).next = _
      rw [hother c (by rintro rfl; exact hn'.1 hc)]
    obtain ⟨s3, e3, I3, hq3, hsl3, hro3, ho3, hi3⟩ := activateLoop_locked l n s2 (s.bd b).next sl T P
      hL I2 hp2 hn'.2 (by intro c hc; exact hT c (by simp [hc]))
      (by
        intro c hc
        simp only [hs2, List.mem_append, List.mem_singleton]
        rintro (h | h)
        · exact hR c (by simp [hc]) h
        · subst h; exact hn'.1 hc)
      (by simpa using hlen)
    refine ⟨s3, ?_, I3, (hq1.trans hq2).trans hq3, hsl3, ?_, ?_, ?_⟩
    · simp only [activateLoop]
      rw [← hs1, hact]
      exact e3
    · rw [hro3]; simp [hs2, hs1, St.setB]
    · intro c hc
      have hcb : c ≠ b := by rintro rfl; simp at hc
      rw [ho3 c (by intro h; exact hc (by simp [h]))]
      exact hother c hcb
    · intro c hc
      rcases List.mem_cons.1 hc with rfl | hc
      · rw [ho3 _ hn'.1]; exact ⟨hroot, hid⟩
      · exact hi3 c hc

/-! ### `Body.Activate` -/

/-- Between calls: the bookkeeping is right, and bodies only wait to be woken while the space is locked. -/
structure Ok (s : St K) (P : List Nat) : Prop where
  inv : Inv s s.sleeping s.roused P
  roots : ∀ b ∈ s.roused, (s.bd b).root = none
  unlocked : s.locked = 0 → s.roused = []

theorem touchIdle_same : ∀ (l : List Nat) (s : St K) (b : Nat),
    SameI s (touchIdle s b l) ∧ ∀ c, ((touchIdle s b l).bd c).idle = 0 ∨ ((touchIdle s b l).bd c).idle = (s.bd c).idle
  | [], s, b => ⟨SameI.refl s, fun _ => Or.inr rfl⟩
  | r :: l, s, b => by
    rw [touchIdle]
    generalize (if (s.ar r).a = b then (s.ar r).b else (s.ar r).a) = o
    by_cases h : (s.bd o).kind ≠ .static
    · rw [if_pos h]
      obtain ⟨h1, h2⟩ := touchIdle_same l (s.setB o fun d => { d with idle := 0 }) b
      refine ⟨(SameI.setB_idle s o (fun _ => 0)).trans h1, fun c => ?_⟩
      rcases h2 c with h | h
      · exact Or.inl h
      · by_cases e : c = o
        · subst e; left; rw [h]; simp [St.setB]
        · right; rw [h]; simp [St.setB, e]
    · rw [if_neg h]; exact touchIdle_same l s b

theorem touchIdle_other : ∀ (l : List Nat) (s : St K) (b c : Nat),
    (∀ r ∈ l, c ≠ if (s.ar r).a = b then (s.ar r).b else (s.ar r).a) → ((touchIdle s b l).bd c).idle = (s.bd c).idle
  | [], _, _, _, _ => rfl
  | r :: l, s, b, c, h => by
    rw [touchIdle]
    have h1 := h r (by simp)
    generalize (if (s.ar r).a = b then (s.ar r).b else (s.ar r).a) = o at h1 ⊢
    by_cases hk : (s.bd o).kind ≠ .static
    · simp only [if_pos hk]
      have := touchIdle_other l (s.setB o fun d => { d with idle := 0 }) b c (fun q hq => h q (by simp [hq]))
      rw [this]
      simp only [St.setB, if_neg h1]
    · simp only [if_neg hk]
      exact touchIdle_other l s b c (fun q hq => h q (by simp [hq]))

theorem Inv.groupList {s : St K} {sl T P : List Nat} (I : Inv s sl T P) {b r : Nat} (hb : b ∉ T) (h : (s.bd b).root = some r) :
    r ∈ sl ∧ ∃ l, Path s (some r) l ∧ l.Nodup ∧ (∀ c, c ∈ l ↔ (c ∉ T ∧ (s.bd c).root = some r)) ∧ l.length ≤ s.nb ∧
      (s.bd r).root = some r := by
  have hr := I.groups.root b r hb h
  obtain ⟨l, h1, h2, h3⟩ := I.groups.chain r hr.1
  refine ⟨hr.1, l, h1, h2, h3, ?_, ?_⟩
  · have hsub : l ⊆ List.range s.nb := by
      intro c hc
      have h4 := (h3 c).1 hc
      rw [List.mem_range]
      exact I.groups.nb c (I.groups.root c r h4.1 h4.2).2.2
    have := (List.subperm_of_subset h2 hsub).length_le
    simpa using this
  · cases l with
    | nil => exact h1.elim
    | cons c l =>
      have : r = c := h1.1
      subst this
      exact ((h3 r).1 (by simp)).2

/-- What `Body.Activate` does to a space whose bookkeeping is right: the whole group of the body is awake afterwards,
or waits to be woken if the space is locked; nothing else wakes. -/
structure Woken (s s' : St K) (b : Nat) : Prop where
  quiet : Quiet s s'
  root : ∀ c, (s'.bd c).root = if (s.bd b).kind = .dynamic ∧ (s.bd b).root ≠ none ∧ (s.bd c).root = (s.bd b).root then none else (s.bd c).root
  idle : ∀ c, (s'.bd c).idle = 0 ∨ (s'.bd c).idle = (s.bd c).idle
  idleB : (s.bd b).kind = .dynamic → (s'.bd b).idle = 0
  roused : s.locked = 0 → s'.roused = s.roused
  idleG : ∀ c, (s.bd b).kind = .dynamic → (s.bd b).root ≠ none → (s.bd c).root = (s.bd b).root → (s'.bd c).idle = 0
  rest : ∀ c, (s'.bd c).root ≠ none → (s'.bd c).idle = (s.bd c).idle

theorem activate_ok {s : St K} {P : List Nat} (H : Ok s P) (b : Nat) :
    ∃ s', activate s b = some s' ∧ Ok s' P ∧ Woken s s' b := by
  by_cases hk : (s.bd b).kind = .dynamic
  swap
  · refine ⟨s, by simp [activate, hk], H, Quiet.refl s, ?_, fun _ => Or.inr rfl, fun h => absurd h hk, fun _ => rfl, fun _ h => absurd h hk, fun _ _ => rfl⟩
    intro c; rw [if_neg (fun h => hk h.1)]
  unfold activate
  rw [if_neg (by simp [hk])]
  simp only
  set s1 := s.setB b fun d => { d with idle := 0 } with hs1
  have hsame : SameI s s1 := SameI.setB_idle s b (fun _ => 0)
  have hsl : s1.sleeping = s.sleeping := rfl
  have hro : s1.roused = s.roused := rfl
  have hlk : s1.locked = s.locked := rfl
  have hr1 : ∀ c, (s1.bd c).root = (s.bd c).root := fun c => (hsame.bd c).2.1
  have hidb : (s1.bd b).idle = 0 := by simp [hs1, St.setB]
  have hido : ∀ c, c ≠ b → (s1.bd c).idle = (s.bd c).idle := by intro c hc; simp [hs1, St.setB, hc]
  have I1 : Inv s1 s1.sleeping s1.roused P := H.inv.congr hsame.all
  -- the end is the same in all cases
  have finish : ∀ s3 : St K, Ok s3 P → Quiet s s3 →
      (∀ c, (s3.bd c).root = if (s.bd b).kind = .dynamic ∧ (s.bd b).root ≠ none ∧ (s.bd c).root = (s.bd b).root then none else (s.bd c).root) →
      (∀ c, (s3.bd c).idle = 0 ∨ (s3.bd c).idle = (s.bd c).idle) → (s3.bd b).idle = 0 → (s.locked = 0 → s3.roused = s.roused) →
      (∀ c, (s.bd b).root ≠ none → (s.bd c).root = (s.bd b).root → (s3.bd c).idle = 0) →
      (∀ c, (s3.bd c).root ≠ none → (s3.bd c).idle = (s.bd c).idle) →
      ∃ s', some (touchIdle s3 b (s3.bd b).arbs) = some s' ∧ Ok s' P ∧ Woken s s' b := by
    intro s3 H3 q3 r3 i3 ib3 ro3 ig3 rest3
    obtain ⟨t1, t2⟩ := touchIdle_same (s3.bd b).arbs s3 b
    refine ⟨_, rfl, ⟨?_, ?_, ?_⟩, q3.trans t1.quiet, ?_, ?_, ?_, ?_, ?_, ?_⟩
    · have e1 : (touchIdle s3 b (s3.bd b).arbs).sleeping = s3.sleeping := by rw [t1.rest]
      have e2 : (touchIdle s3 b (s3.bd b).arbs).roused = s3.roused := by rw [t1.rest]
      rw [e1, e2]
      exact H3.inv.congr t1.all
    · intro c; rw [(t1.bd c).2.1, t1.rest]; exact H3.roots c
    · rw [t1.rest]; exact H3.unlocked
    · intro c; rw [(t1.bd c).2.1]; exact r3 c
    · intro c
      rcases t2 c with h | h
      · exact Or.inl h
      · rw [h]; exact i3 c
    · intro _
      rcases t2 b with h | h
      · exact h
      · rw [h]; exact ib3
    · intro h; rw [t1.rest]; exact ro3 h
    · intro c _ h h'
      rcases t2 c with e | e
      · exact e
      · rw [e]; exact ig3 c h h'
    · intro c hc
      rw [(t1.bd c).2.1] at hc
      rw [touchIdle_other _ _ _ _ ?_]
      · exact rest3 c hc
      · intro r hr
        obtain ⟨g, hg⟩ := Option.ne_none_iff_exists'.1 hc
        have hcT : c ∉ s3.roused := by intro h; rw [H3.roots c h] at hg; cases hg
        have hb0 : (s3.bd b).root = none := by
          rw [r3 b]; split
          · rfl
          · rename_i h; by_contra h'; exact h ⟨hk, h', rfl⟩
        have hbk : (s3.bd b).kind = .dynamic := by rw [(q3.bd b).1]; exact hk
        obtain ⟨ht, he⟩ := (H3.inv.arbs.list b r).1 hr
        obtain ⟨g1, g2⟩ := H3.inv.arbs.group r ht
        rintro rfl
        by_cases hab : (s3.ar r).a = b
        · rw [if_pos hab] at hg hcT
          rcases g2 g hcT hg with h | h
          · rw [hab, hbk] at h; cases h
          · rw [hab, hb0] at h; cases h.2
        · rw [if_neg hab] at hg hcT
          have hbb : (s3.ar r).b = b := he.resolve_left hab
          rcases g1 g hcT hg with h | h
          · rw [hbb, hbk] at h; cases h
          · rw [hbb, hb0] at h; cases h.2
  have idle1 : ∀ c, (s1.bd c).idle = 0 ∨ (s1.bd c).idle = (s.bd c).idle := by
    intro c
    by_cases hc : c = b
    · subst hc; exact Or.inl hidb
    · exact Or.inr (hido c hc)
  have ok1 : Ok s1 P := ⟨I1, by intro c hc; rw [hr1]; exact H.roots c hc, H.unlocked⟩
  cases hrt : (s1.bd b).root with
  | none =>
    simp only
    have hrb : (s.bd b).root = none := by rw [← hr1]; exact hrt
    refine finish s1 ok1 hsame.quiet ?_ idle1 hidb (fun _ => rfl) (fun _ h => absurd hrb h)
      (fun c hc => hido c (by rintro rfl; exact hc (by rw [hr1]; exact hrb)))
    intro c; rw [if_neg (fun h => h.2.1 hrb), hr1]
  | some r =>
    have hrb : (s.bd b).root = some r := by rw [← hr1]; exact hrt
    have hbT : b ∉ s1.roused := by
      intro h; have := H.roots b h; rw [hrb] at this; cases this
    obtain ⟨hrsl, l, hp, hln, hl, hlen, hrr⟩ := I1.groupList hbT hrt
    simp only
    rw [if_pos (by rw [hrr]; rfl)]
    have I2 := I1.rouse hrsl hln hl
    by_cases hlock : s.locked = 0
    · have hT : s1.roused = [] := H.unlocked hlock
      obtain ⟨s2, e2, I3, q2, sl2, ro2, o2, i2⟩ := activateLoop_unlocked l (s1.nb + 1) s1 (some r) (s1.sleeping.erase r) (s1.roused ++ l) P
        hlock I2 hp hln (fun c hc => List.mem_append_right _ hc) (by omega)
      rw [e2]
      simp only
      have hdiff : (s1.roused ++ l).diff l = s1.roused := by
        rw [hT, List.nil_append, List.eq_nil_iff_forall_not_mem]
        intro c hc
        rw [hln.mem_sdiff_iff] at hc
        exact hc.2 hc.1
      rw [hdiff] at I3
      have q3 : Quiet s2 { s2 with sleeping := s2.sleeping.erase r } := by
        constructor <;> intros <;> first | rfl | (rename_i h r hr; exact h r hr) | exact Or.inl rfl | exact ⟨rfl, rfl, rfl, rfl, rfl⟩ | exact ⟨rfl, rfl, rfl, rfl, rfl, rfl⟩ | exact Iff.rfl
      refine finish _ ⟨?_, ?_, ?_⟩ ((hsame.quiet.trans q2).trans q3) ?_ ?_ ?_ ?_ ?_ ?_
      · show Inv _ (s2.sleeping.erase r) s2.roused P
        rw [sl2, ro2]
        exact I3.congr (by constructor <;> intros <;> simp [SameB])
      · intro c hc
        have hc' : c ∈ s2.roused := hc
        rw [ro2, hT] at hc'; simp at hc'
      · intro _
        show s2.roused = []
        rw [ro2, hT]
      · intro c
        show (s2.bd c).root = _
        by_cases hc : c ∈ l
        · rw [(i2 c hc).1, if_pos ⟨hk, by rw [hrb]; simp, by rw [hrb, ← hr1]; exact ((hl c).1 hc).2⟩]
        · rw [o2 c hc, hr1]
          rw [if_neg]
          rintro ⟨_, _, h⟩
          refine hc ((hl c).2 ⟨by rw [hT]; simp, ?_⟩)
          rw [hr1, h, hrb]
      · intro c
        show (s2.bd c).idle = 0 ∨ (s2.bd c).idle = _
        by_cases hc : c ∈ l
        · exact Or.inl (i2 c hc).2
        · rw [o2 c hc]; exact idle1 c
      · show (s2.bd b).idle = 0
        exact (i2 b ((hl b).2 ⟨hbT, hrt⟩)).2
      · intro _; exact ro2
      · intro c _ hc
        show (s2.bd c).idle = 0
        exact (i2 c ((hl c).2 ⟨by rw [hT]; simp, by rw [hr1, hc, hrb]⟩)).2
      · intro c hc
        have hc' : (s2.bd c).root ≠ none := hc
        show (s2.bd c).idle = _
        by_cases hcl : c ∈ l
        · exact absurd (i2 c hcl).1 hc'
        · rw [o2 c hcl]
          refine hido c ?_
          rintro rfl
          exact hcl ((hl c).2 ⟨hbT, hrt⟩)
    · obtain ⟨s2, e2, I3, q2, sl2, ro2, o2, i2⟩ := activateLoop_locked l (s1.nb + 1) s1 (some r) (s1.sleeping.erase r) (s1.roused ++ l) P
        hlock I2 hp hln (fun c hc => List.mem_append_right _ hc) (fun c hc => ((hl c).1 hc).1) (by omega)
      rw [e2]
      simp only
      have q3 : Quiet s2 { s2 with sleeping := s2.sleeping.erase r } := by
        constructor <;> intros <;> first | rfl | (rename_i h r hr; exact h r hr) | exact Or.inl rfl | exact ⟨rfl, rfl, rfl, rfl, rfl⟩ | exact ⟨rfl, rfl, rfl, rfl, rfl, rfl⟩ | exact Iff.rfl
      have hl2 : s2.locked = s.locked := q2.locked
      refine finish _ ⟨?_, ?_, ?_⟩ ((hsame.quiet.trans q2).trans q3) ?_ ?_ ?_ ?_ ?_ ?_
      · show Inv _ (s2.sleeping.erase r) s2.roused P
        rw [sl2, ro2]
        exact I3.congr (by constructor <;> intros <;> simp [SameB])
      · intro c hc
        have hc' : c ∈ s2.roused := hc
        show (s2.bd c).root = none
        rw [ro2, List.mem_append] at hc'
        by_cases hcl : c ∈ l
        · exact (i2 c hcl).1
        · rcases hc' with h | h
          · rw [o2 c hcl, hr1]; exact H.roots c h
          · exact absurd h hcl
      · intro h; exact absurd (by rw [← hl2]; exact h) hlock
      · intro c
        show (s2.bd c).root = _
        by_cases hc : c ∈ l
        · rw [(i2 c hc).1, if_pos ⟨hk, by rw [hrb]; simp, by rw [hrb, ← hr1]; exact ((hl c).1 hc).2⟩]
        · rw [o2 c hc, hr1]
          rw [if_neg]
          rintro ⟨_, _, h⟩
          refine hc ((hl c).2 ⟨?_, ?_⟩)
          · intro h'; have := H.roots c h'; rw [h, hrb] at this; cases this
          · rw [hr1, h, hrb]
      · intro c
        show (s2.bd c).idle = 0 ∨ (s2.bd c).idle = _
        by_cases hc : c ∈ l
        · exact Or.inl (i2 c hc).2
        · rw [o2 c hc]; exact idle1 c
      · show (s2.bd b).idle = 0
        exact (i2 b ((hl b).2 ⟨hbT, hrt⟩)).2
      · intro h; exact absurd h hlock
      · intro c _ hc
        show (s2.bd c).idle = 0
        refine (i2 c ((hl c).2 ⟨?_, by rw [hr1, hc, hrb]⟩)).2
        intro h'; have := H.roots c h'; rw [hc, hrb] at this; cases this
      · intro c hc
        have hc' : (s2.bd c).root ≠ none := hc
        show (s2.bd c).idle = _
        by_cases hcl : c ∈ l
        · exact absurd (i2 c hcl).1 hc'
        · rw [o2 c hcl]
          refine hido c ?_
          rintro rfl
          exact hcl ((hl c).2 ⟨hbT, hrt⟩)

end

end Sp
end Cm
