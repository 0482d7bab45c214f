import Verif.Proofs.SpaceWake

/-! # Falling asleep keeps the bookkeeping -/
set_option linter.unusedSectionVars false
set_option linter.unusedSimpArgs false
set_option linter.unusedVariables false
set_option linter.unusedTactic false
set_option linter.unreachableTactic false

namespace Cm
namespace Sp
variable {K : Type}

theorem deactivate_eq {s : St K} {sl T P : List Nat} (I : Inv s sl T P) {b : Nat} (hb : b ∈ s.dyn) (hk : (s.bd b).kind = .dynamic)
    (hfull : ∀ x ∈ (s.bd b).shapes, (s.sh x).space = true) :
    ∃ arb, deactivate s b = some { s with
      dyn := s.dyn.erase b
      dynIdx := s.dynIdx.diff (s.bd b).shapes
      statIdx := s.statIdx ++ (s.bd b).shapes
      arbiters := arb
      cached := s.cached.diff (ownedArbs s b (s.bd b).arbs)
      cons := s.cons.diff (ownedCons s b (s.bd b).cons) } ∧ arb.Perm (s.arbiters.diff (ownedArbs s b (s.bd b).arbs)) := by
  have hnoff : ¬ off s T b := ((I.blists.dyn b).1 hb).2.2
  unfold deactivate
  rw [sleepShapes_eq _ _ (I.shapes.attN b)]
  swap
  · intro x hx
    show x ∈ s.dynIdx
    rw [I.shapes.dyn]
    refine ⟨hfull x hx, ?_⟩
    rw [I.shapes.att b x hx]
    rintro (h | h)
    · rw [hk] at h; cases h
    · exact hnoff h
  simp only
  obtain ⟨arb, e1, e2⟩ := sleepArbs_eq b (s.bd b).arbs { s with dyn := s.dyn.erase b, dynIdx := s.dynIdx.diff (s.bd b).shapes, statIdx := s.statIdx ++ (s.bd b).shapes }
    (I.arbs.listN b)
    (by
      intro r hr
      have hr' : r ∈ ownedArbs s b (s.bd b).arbs := hr
      rw [mem_ownedArbs I.arbs hk] at hr'
      refine ⟨(I.arbs.cach r hr'.1).2 (by rw [hr'.2]; exact hnoff), (I.arbs.arb r).2 (Or.inr ⟨hr'.1, by rw [hr'.2]; exact hnoff⟩)⟩)
    I.arbs.cachedN I.arbs.arbN
    (by intro r hr q hq hp; exact I.arbs.uniq q r (Or.inl hq) (Or.inl hr) hp)
  refine ⟨arb, ?_, e2⟩
  rw [e1]
  simp only
  rw [sleepCons_eq]
  rfl

theorem deactivate_inv {s : St K} {sl T P : List Nat} (I : Inv s sl T P) {b : Nat} (hb : b ∈ s.dyn) (hk : (s.bd b).kind = .dynamic)
    (hfull : ∀ x ∈ (s.bd b).shapes, (s.sh x).space = true) :
    ∃ s', deactivate s b = some s' ∧ Inv s' sl (T ++ [b]) P ∧ Quiet s s' ∧ s'.bd = s.bd ∧ s'.sleeping = s.sleeping ∧
      s'.roused = s.roused ∧ s'.dyn = s.dyn.erase b := by
  obtain ⟨arb, e, hperm⟩ := deactivate_eq I hb hk hfull
  have hB := (I.blists.dyn b).1 hb
  have hnoff : ¬ off s T b := hB.2.2
  have hsp := hB.1
  have hroot : (s.bd b).root = none := by
    by_contra h; exact hnoff (Or.inl h)
  have hbT : b ∉ T := fun h => hnoff (Or.inr h)
  refine ⟨_, e, ?_, ?_, rfl, rfl, rfl, rfl⟩
  swap
  · constructor
    case bd => intro c; exact ⟨rfl, rfl, rfl, rfl, rfl⟩
    case ar => intro r; exact ⟨rfl, rfl, rfl, rfl, rfl, rfl⟩
    case live =>
      intro r
      simp only [live, thr, I.arbs.cachedN.mem_sdiff_iff]
      constructor
      · rintro (h | h)
        · exact Or.inl h.1
        · exact Or.inr h
      · rintro (h | h)
        · by_cases h' : r ∈ ownedArbs s b (s.bd b).arbs
          · exact Or.inr ((mem_ownedArbs I.arbs hk).1 h').1
          · exact Or.inl ⟨h, h'⟩
        · exact Or.inr h
    case stamps =>
      intro h r hr
      exact h r (List.diff_subset _ _ (hperm.mem_iff.1 hr))
    case restamp => exact fun r => Or.inl rfl
    all_goals rfl
  generalize hs' : ({ s with
      dyn := s.dyn.erase b
      dynIdx := s.dynIdx.diff (s.bd b).shapes
      statIdx := s.statIdx ++ (s.bd b).shapes
      arbiters := arb
      cached := s.cached.diff (ownedArbs s b (s.bd b).arbs)
      cons := s.cons.diff (ownedCons s b (s.bd b).cons) } : St K) = s'
  have hbd : s'.bd = s.bd := by rw [← hs']
  have hkk : ∀ c, (s'.bd c).kind = (s.bd c).kind := fun c => by rw [hbd]
  have hmT : ∀ c, c ∈ T ++ [b] ↔ (c ∈ T ∨ c = b) := fun c => by simp
  have ho : ∀ c, off s' (T ++ [b]) c ↔ (off s T c ∨ c = b) := by
    intro c; simp only [off, hbd, hmT, or_assoc]
  have hfr : ∀ c, frozen s' (T ++ [b]) c ↔ (frozen s T c ∨ c = b) := by
    intro c; simp only [frozen, ho, hbd, or_assoc]
  have htg : ∀ x y, Together s T x y → Together s' (T ++ [b]) x y := by
    intro x y g q h1 h2
    rw [hmT] at h1; push Not at h1
    rw [hbd] at h2 ⊢
    rcases g q h1.1 h2 with h | ⟨h3, h4⟩
    · exact Or.inl h
    · refine Or.inr ⟨?_, h4⟩
      rw [hmT]
      rintro (h | h)
      · exact h3 h
      · subst h; rw [hroot] at h4; cases h4
  refine ⟨?_, ?_, ?_, ?_, ?_⟩
  · have G := I.groups
    refine ⟨G.nodup, ?_, ?_, ?_, ?_, ?_, ?_⟩
    · rw [List.nodup_append]
      refine ⟨G.nodupT, by simp, ?_⟩
      rintro x hx y hy rfl
      simp only [List.mem_singleton] at hy
      subst hy; exact hbT hx
    · intro r hrs
      obtain ⟨l, h1, h2, h3⟩ := G.chain r hrs
      refine ⟨l, h1.congr (fun c => by rw [hbd]), h2, fun c => ?_⟩
      rw [h3 c, hbd, hmT]
      constructor
      · rintro ⟨h, h'⟩
        refine ⟨?_, h'⟩
        rintro (k | rfl)
        · exact h k
        · rw [hroot] at h'; cases h'
      · rintro ⟨h, h'⟩; exact ⟨fun k => h (Or.inl k), h'⟩
    · intro c r h1 h2
      rw [hbd] at h2 ⊢
      exact G.root c r (fun h => h1 ((hmT c).2 (Or.inl h))) h2
    · intro c hc; rw [hbd]
      rcases (hmT c).1 hc with h | rfl
      · exact G.trans c h
      · exact ⟨hk, hsp⟩
    · rw [hbd]; exact G.next
    · rw [hbd, ← hs']; exact G.nb
  · have B := I.blists
    have hd : s'.dyn = s.dyn.erase b := by rw [← hs']
    have hs : s'.stat = s.stat := by rw [← hs']
    refine ⟨hd ▸ B.dynN.erase b, by rw [hs]; exact B.statN, ?_, ?_⟩
    · intro c
      rw [hd, B.dynN.mem_erase_iff, hbd, B.dyn, ho]
      constructor
      · rintro ⟨h0, h1, h2, h3⟩
        exact ⟨h1, h2, fun h => h.elim h3 h0⟩
      · rintro ⟨h1, h2, h3⟩
        exact ⟨fun h => h3 (Or.inr h), h1, h2, fun h => h3 (Or.inl h)⟩
    · intro c; rw [hs, hbd]; exact B.stat c
  · have S := I.shapes
    have hd : s'.dynIdx = s.dynIdx.diff (s.bd b).shapes := by rw [← hs']
    have hs : s'.statIdx = s.statIdx ++ (s.bd b).shapes := by rw [← hs']
    have hsh : s'.sh = s.sh := by rw [← hs']
    have hmem : ∀ x, x ∈ (s.bd b).shapes ↔ ((s.sh x).space = true ∧ (s.sh x).body = b) := by
      intro x
      constructor
      · intro h; exact ⟨hfull x h, S.att b x h⟩
      · rintro ⟨h1, h2⟩; rw [← h2]; exact S.own x h1
    have hnf : ¬ frozen s T b := by
      rintro (h | h)
      · rw [hk] at h; cases h
      · exact hnoff h
    refine ⟨?_, ?_, ?_, ?_, ?_, ?_, ?_, ?_, ?_⟩
    · rw [hd]; exact S.dynN.diff
    · rw [hs, List.nodup_append]
      refine ⟨S.statN, S.attN b, ?_⟩
      rintro x hx y hy rfl
      have h1 := (S.stat x).1 hx
      have h2 := (hmem x).1 hy
      rw [h2.2] at h1
      exact hnf h1.2
    · intro x
      rw [hd, S.dynN.mem_sdiff_iff, S.dyn, hmem, hsh, hfr]
      constructor
      · rintro ⟨⟨h1, h2⟩, h3⟩
        exact ⟨h1, fun h => h.elim h2 (fun h => h3 ⟨h1, h⟩)⟩
      · rintro ⟨h1, h2⟩
        exact ⟨⟨h1, fun h => h2 (Or.inl h)⟩, fun h => h2 (Or.inr h.2)⟩
    · intro x
      rw [hs, List.mem_append, S.stat, hmem, hsh, hfr]
      constructor
      · rintro (⟨h1, h2⟩ | ⟨h1, h2⟩)
        · exact ⟨h1, Or.inl h2⟩
        · exact ⟨h1, Or.inr h2⟩
      · rintro ⟨h1, h2 | h2⟩
        · exact Or.inl ⟨h1, h2⟩
        · exact Or.inr ⟨h1, h2⟩
    · rw [hbd, hsh]; exact S.att
    · rw [hbd]; exact S.attN
    · rw [hbd, hsh]; exact S.own
    · intro c x h; rw [hbd, hsh]
      rcases (ho c).1 h with h | rfl
      · exact S.full c x h
      · exact hfull x
    · rw [hbd, hsh]; exact S.home
  · have J := I.joints
    have hc : s'.cons = s.cons.diff (ownedCons s b (s.bd b).cons) := by rw [← hs']
    have hcn : s'.cn = s.cn := by rw [← hs']
    refine ⟨hc ▸ J.nodup.diff, ?_, ?_, ?_, ?_, ?_, ?_⟩
    · intro c
      rw [hc, J.nodup.mem_sdiff_iff, J.mem, mem_ownedCons J hk, hcn, ho, owner_congr hkk]
      constructor
      · rintro ⟨⟨h1, h2⟩, h3⟩
        exact ⟨h1, fun h => h.elim h2 (fun h => h3 ⟨h1, h⟩)⟩
      · rintro ⟨h1, h2⟩
        exact ⟨⟨h1, fun h => h2 (Or.inl h)⟩, fun h => h2 (Or.inr h.2)⟩
    · rw [hbd, hcn]; exact J.list
    · rw [hbd]; exact J.listN
    · rw [hcn]; exact J.ne
    · rw [hbd, hcn]; exact J.home
    · rw [hcn]; intro c h; exact ⟨htg _ _ (J.group c h).1, htg _ _ (J.group c h).2⟩
  · have A := I.arbs
    have ha : s'.arbiters = arb := by rw [← hs']
    have hc : s'.cached = s.cached.diff (ownedArbs s b (s.bd b).arbs) := by rw [← hs']
    have hsh : s'.sh = s.sh := by rw [← hs']
    have har : s'.ar = s.ar := by rw [← hs']
    have hfre : s'.fresh = s.fresh := by rw [← hs']
    have hpo : s'.pool = s.pool := by rw [← hs']
    have hmo := fun r => mem_ownedArbs (r := r) A hk
    have ht : ∀ r, thr s' r ↔ thr s r := by intro r; simp only [thr, hbd, har]
    have hl : ∀ r, live s' r ↔ live s r := by
      intro r
      simp only [live, ht, hc, A.cachedN.mem_sdiff_iff, hmo]
      constructor
      · rintro (h | h)
        · exact Or.inl h.1
        · exact Or.inr h
      · rintro (h | h)
        · by_cases h' : thr s r
          · exact Or.inr h'
          · exact Or.inl ⟨h, fun k => h' k.1⟩
        · exact Or.inr h
    have hown : ∀ r, owner s' (s'.ar r).a (s'.ar r).b = owner s (s.ar r).a (s.ar r).b := by
      intro r; rw [owner_congr hkk, har]
    refine ⟨?_, hc ▸ A.cachedN.diff, A.pendN, ?_, ?_, ?_, ?_, ?_, ?_, ?_, ?_, ?_, ?_⟩
    · rw [ha]; exact hperm.nodup_iff.2 A.arbN.diff
    · intro r
      rw [ha, hperm.mem_iff, A.arbN.mem_sdiff_iff, A.arb, hmo, ht, hown, ho]
      constructor
      · rintro ⟨h1 | h1, h2⟩
        · exact Or.inl h1
        · exact Or.inr ⟨h1.1, fun k => k.elim h1.2 (fun k => h2 ⟨h1.1, k⟩)⟩
      · rintro (h | ⟨h1, h2⟩)
        · exact ⟨Or.inl h, fun k => (A.pend r h).2 k.1⟩
        · exact ⟨Or.inr ⟨h1, fun k => h2 (Or.inl k)⟩, fun k => h2 (Or.inr k.2)⟩
    · intro c r; rw [hbd, ht, har]; exact A.list c r
    · rw [hbd]; exact A.listN
    · intro r hrP
      rw [ht, hc, A.cachedN.mem_sdiff_iff, hmo]
      have := A.pend r hrP
      exact ⟨⟨this.1, fun k => this.2 k.1⟩, this.2⟩
    · intro r
      rw [ht, hc, A.cachedN.mem_sdiff_iff, hmo, hown, ho]
      intro h1
      rw [A.cach r h1]
      constructor
      · rintro ⟨h, h'⟩
        exact fun k => k.elim h (fun k => h' ⟨h1, k⟩)
      · intro h
        exact ⟨fun k => h (Or.inl k), fun k => h (Or.inr k.2)⟩
    · intro r; rw [hl, har]; exact A.ne r
    · intro r; rw [hl, hsh, har]; exact A.shp r
    · intro r r'; rw [hl, hl, har]; exact A.uniq r r'
    · intro r; rw [ht, har]
      intro h
      exact ⟨htg _ _ (A.group r h).1, htg _ _ (A.group r h).2⟩
    · intro r; rw [hl, hfre, hpo]; exact A.ids r

theorem deactivateAll_inv : ∀ (l : List Nat) (s : St K) (sl T P : List Nat), Inv s sl T P → l.Nodup →
    (∀ b ∈ l, b ∈ s.dyn ∧ (s.bd b).kind = .dynamic ∧ ∀ x ∈ (s.bd b).shapes, (s.sh x).space = true) →
    ∃ s', deactivateAll s l = some s' ∧ Inv s' sl (T ++ l) P ∧ Quiet s s' ∧ s'.bd = s.bd ∧ s'.sleeping = s.sleeping ∧
      s'.roused = s.roused ∧ s'.dyn = s.dyn.diff l
  | [], s, sl, T, P, I, _, _ => ⟨s, rfl, by simpa using I, Quiet.refl s, rfl, rfl, rfl, by simp⟩
  | b :: l, s, sl, T, P, I, hn, h => by
    have hn' := List.nodup_cons.1 hn
    obtain ⟨h1, h2, h3⟩ := h b (by simp)
    obtain ⟨s1, e1, I1, q1, bd1, sl1, ro1, dy1⟩ := deactivate_inv I h1 h2 h3
    obtain ⟨s2, e2, I2, q2, bd2, sl2, ro2, dy2⟩ := deactivateAll_inv l s1 sl (T ++ [b]) P I1 hn'.2
      (by
        intro c hc
        obtain ⟨k1, k2, k3⟩ := h c (by simp [hc])
        rw [bd1, q1.sh, dy1]
        refine ⟨?_, k2, k3⟩
        rw [I.blists.dynN.mem_erase_iff]
        exact ⟨by rintro rfl; exact hn'.1 hc, k1⟩)
    refine ⟨s2, ?_, ?_, q1.trans q2, bd2.trans bd1, sl2.trans sl1, ro2.trans ro1, ?_⟩
    · simp only [deactivateAll, e1]; exact e2
    · simpa using I2
    · rw [dy2, dy1, List.diff_cons]

/-! ### `Deactivate` does not look at the links -/

section relink
variable (f : Nat → Bd K)

theorem sleepShapes_relink : ∀ (l : List Nat) (s : St K),
    sleepShapes { s with bd := f } l = (sleepShapes s l).map fun t => { t with bd := f }
  | [], s => rfl
  | x :: l, s => by
    simp only [sleepShapes]
    cases h : idxRemove s.dynIdx x with
    | none => rfl
    | some i => simp only; exact sleepShapes_relink l { s with dynIdx := i, statIdx := s.statIdx ++ [x] }

theorem sleepArbs_relink (b : Nat) : ∀ (l : List Nat) (s : St K), (∀ c, (f c).kind = (s.bd c).kind) →
    sleepArbs { s with bd := f } b l = (sleepArbs s b l).map fun t => { t with bd := f }
  | [], s, _ => rfl
  | r :: l, s, hf => by
    simp only [sleepArbs, hf]
    by_cases h : b = (s.ar r).a ∨ (s.bd (s.ar r).a).kind = .static
    · rw [if_pos h, if_pos h]
      have : uncache { s with bd := f } r = (uncache s r).map fun t => { t with bd := f } := by
        have hl : ∀ x y, St.lookup { s with bd := f } x y = s.lookup x y := fun _ _ => rfl
        cases hlk : s.lookup (s.ar r).sa (s.ar r).sb <;> simp only [uncache, hl, hlk] <;> split <;> rfl
      rw [this]
      cases hu : uncache s r with
      | none => rfl
      | some s1 =>
        simp only [Option.map_some]
        have hb : s1.bd = s.bd := by
          simp only [uncache] at hu
          cases hlk : s.lookup (s.ar r).sa (s.ar r).sb <;> rw [hlk] at hu <;> simp only at hu <;> split at hu <;> cases hu <;> rfl
        exact sleepArbs_relink b l s1 (by rw [hb]; exact hf)
    · rw [if_neg h, if_neg h]; exact sleepArbs_relink b l s hf

theorem sleepCons_relink (b : Nat) (l : List Nat) (s : St K) (hf : ∀ c, (f c).kind = (s.bd c).kind) :
    sleepCons { s with bd := f } b l = { sleepCons s b l with bd := f } := by
  rw [sleepCons_eq, sleepCons_eq]
  simp only [ownedCons, hf]

theorem sleepShapes_bd : ∀ (l : List Nat) (s t : St K), sleepShapes s l = some t → t.bd = s.bd
  | [], s, t, h => by cases h; rfl
  | x :: l, s, t, h => by
    simp only [sleepShapes] at h
    cases hx : idxRemove s.dynIdx x with
    | none => rw [hx] at h; cases h
    | some i => rw [hx] at h; have h' := sleepShapes_bd l _ _ h; exact h'

theorem uncache_bd (s t : St K) (r : Nat) (hu : uncache s r = some t) : t.bd = s.bd := by
  simp only [uncache] at hu
  cases hlk : s.lookup (s.ar r).sa (s.ar r).sb <;> rw [hlk] at hu <;> simp only at hu <;> split at hu <;> cases hu <;> rfl

theorem sleepArbs_bd (b : Nat) : ∀ (l : List Nat) (s t : St K), sleepArbs s b l = some t → t.bd = s.bd
  | [], s, t, h => by cases h; rfl
  | r :: l, s, t, h => by
    simp only [sleepArbs] at h
    by_cases hc : b = (s.ar r).a ∨ (s.bd (s.ar r).a).kind = .static
    · rw [if_pos hc] at h
      cases hu : uncache s r with
      | none => rw [hu] at h; cases h
      | some s1 => rw [hu] at h; exact (sleepArbs_bd b l _ _ h).trans (uncache_bd _ _ _ hu)
    · rw [if_neg hc] at h; exact sleepArbs_bd b l _ _ h

theorem deactivate_relink (b : Nat) (s : St K)
    (hf : ∀ c, (f c).kind = (s.bd c).kind ∧ (f c).shapes = (s.bd c).shapes ∧ (f c).arbs = (s.bd c).arbs ∧ (f c).cons = (s.bd c).cons) :
    deactivate { s with bd := f } b = (deactivate s b).map fun t => { t with bd := f } := by
  simp only [deactivate]
  rw [(hf b).2.1, (hf b).2.2.1, (hf b).2.2.2]
  rw [show ({ s with dyn := s.dyn.erase b, bd := f } : St K) = { ({ s with dyn := s.dyn.erase b } : St K) with bd := f } from rfl, sleepShapes_relink]
  cases h1 : sleepShapes { s with dyn := s.dyn.erase b } (s.bd b).shapes with
  | none => rfl
  | some s1 =>
    have hb1 := sleepShapes_bd _ _ _ h1
    replace hb1 : s1.bd = s.bd := hb1
    simp only [Option.map_some]
    rw [sleepArbs_relink f b _ s1 (by rw [hb1]; exact fun c => (hf c).1)]
    cases h2 : sleepArbs s1 b (s.bd b).arbs with
    | none => rfl
    | some s2 =>
      have hb2 : s2.bd = s.bd := (sleepArbs_bd b _ _ _ h2).trans hb1
      simp only [Option.map_some]
      rw [sleepCons_relink f b _ s2 (by rw [hb2]; exact fun c => (hf c).1)]

theorem deactivate_bd (b : Nat) (s t : St K) (h : deactivate s b = some t) : t.bd = s.bd := by
  simp only [deactivate] at h
  cases h1 : sleepShapes { s with dyn := s.dyn.erase b } (s.bd b).shapes with
  | none => rw [h1] at h; cases h
  | some s1 =>
    rw [h1] at h; simp only at h
    cases h2 : sleepArbs s1 b (s.bd b).arbs with
    | none => rw [h2] at h; cases h
    | some s2 =>
      rw [h2] at h; simp only [Option.some.injEq] at h
      rw [← h, sleepCons_eq]
      have hb1 := sleepShapes_bd _ _ _ h1
      exact (sleepArbs_bd b _ _ _ h2).trans hb1

theorem deactivateAll_relink : ∀ (l : List Nat) (s : St K),
    (∀ c, (f c).kind = (s.bd c).kind ∧ (f c).shapes = (s.bd c).shapes ∧ (f c).arbs = (s.bd c).arbs ∧ (f c).cons = (s.bd c).cons) →
    deactivateAll { s with bd := f } l = (deactivateAll s l).map fun t => { t with bd := f }
  | [], s, _ => rfl
  | b :: l, s, hf => by
    simp only [deactivateAll]
    rw [deactivate_relink f b s hf]
    cases h : deactivate s b with
    | none => rfl
    | some s1 =>
      simp only [Option.map_some]
      refine deactivateAll_relink l s1 ?_
      rw [deactivate_bd b s s1 h]; exact hf
end relink

/-! ### A group settles -/

/-- Bodies on their way that have been linked to a group, closed under contacts and joints, are a sleeping group. -/
theorem Inv.settle {s s' : St K} {sl l P : List Nat} {r : Nat} (I : Inv s sl l P) (hr : r ∉ sl)
    (hs' : s' = { s with bd := s'.bd })
    (hbd : ∀ c, (s'.bd c).kind = (s.bd c).kind ∧ (s'.bd c).shapes = (s.bd c).shapes ∧ (s'.bd c).arbs = (s.bd c).arbs ∧
      (s'.bd c).cons = (s.bd c).cons ∧ (s'.bd c).space = (s.bd c).space)
    (hout : ∀ c, c ∉ l → (s'.bd c).root = (s.bd c).root ∧ (s'.bd c).next = (s.bd c).next)
    (hin : ∀ c ∈ l, (s'.bd c).root = some r)
    (hpath : Path s' (some r) l)
    (hj : ∀ c, (s.cn c).space = true → ((s.cn c).a ∈ l → (s.bd (s.cn c).b).kind = .static ∨ (s.cn c).b ∈ l) ∧
      ((s.cn c).b ∈ l → (s.bd (s.cn c).a).kind = .static ∨ (s.cn c).a ∈ l))
    (ha : ∀ q, thr s q → ((s.ar q).a ∈ l → (s.bd (s.ar q).b).kind = .static ∨ (s.ar q).b ∈ l) ∧
      ((s.ar q).b ∈ l → (s.bd (s.ar q).a).kind = .static ∨ (s.ar q).a ∈ l)) :
    Inv s' (sl ++ [r]) [] P := by
  have hk := fun c => (hbd c).1
  have hx := fun c => (hbd c).2.1
  have hab := fun c => (hbd c).2.2.1
  have hcn' := fun c => (hbd c).2.2.2.1
  have hsp := fun c => (hbd c).2.2.2.2
  have hroot : ∀ c g, (s'.bd c).root = some g → (c ∈ l ∧ g = r) ∨ (c ∉ l ∧ (s.bd c).root = some g) := by
    intro c g h
    by_cases hc : c ∈ l
    · rw [hin c hc] at h; exact Or.inl ⟨hc, (Option.some.inj h).symm⟩
    · rw [(hout c hc).1] at h; exact Or.inr ⟨hc, h⟩
  have ho : ∀ c, off s' [] c ↔ off s l c := by
    intro c
    simp only [off, List.not_mem_nil, or_false]
    by_cases hc : c ∈ l
    · simp [hin c hc, hc]
    · simp [(hout c hc).1, hc]
  have hf : ∀ c, frozen s' [] c ↔ frozen s l c := fun c => by simp only [frozen, ho, hk]
  have how : ∀ x y, owner s' x y = owner s x y := fun x y => by simp only [owner, hk]
  have htg : ∀ x y, Together s l x y → (x ∈ l → (s.bd y).kind = .static ∨ y ∈ l) → Together s' [] x y := by
    intro x y g hxy q _ h2
    rw [hk]
    rcases hroot x q h2 with ⟨h, rfl⟩ | ⟨h, h'⟩
    · rcases hxy h with k | k
      · exact Or.inl k
      · exact Or.inr ⟨by simp, hin y k⟩
    · rcases g q h h' with k | ⟨k1, k2⟩
      · exact Or.inl k
      · exact Or.inr ⟨by simp, by rw [(hout y k1).1]; exact k2⟩
  have e1 : s'.dyn = s.dyn := by rw [hs']
  have e2 : s'.stat = s.stat := by rw [hs']
  have e3 : s'.dynIdx = s.dynIdx := by rw [hs']
  have e4 : s'.statIdx = s.statIdx := by rw [hs']
  have e5 : s'.cons = s.cons := by rw [hs']
  have e6 : s'.arbiters = s.arbiters := by rw [hs']
  have e7 : s'.cached = s.cached := by rw [hs']
  have e8 : s'.sh = s.sh := by rw [hs']
  have e9 : s'.cn = s.cn := by rw [hs']
  have e10 : s'.ar = s.ar := by rw [hs']
  have e11 : s'.nb = s.nb := by rw [hs']
  have e12 : s'.fresh = s.fresh := by rw [hs']
  have e13 : s'.pool = s.pool := by rw [hs']
  have ht : ∀ r, thr s' r ↔ thr s r := fun r => by simp only [thr, e10, hab]
  have hlv : ∀ r, live s' r ↔ live s r := fun r => by simp only [live, ht, e7]
  have G := I.groups
  refine ⟨⟨?_, by simp, ?_, ?_, ?_, ?_, ?_⟩, ⟨e1 ▸ I.blists.dynN, e2 ▸ I.blists.statN, ?_, ?_⟩,
    ⟨e3 ▸ I.shapes.dynN, e4 ▸ I.shapes.statN, ?_, ?_, ?_, ?_, ?_, ?_, ?_⟩,
    ⟨e5 ▸ I.joints.nodup, ?_, ?_, ?_, ?_, ?_, ?_⟩,
    ⟨e6 ▸ I.arbs.arbN, e7 ▸ I.arbs.cachedN, I.arbs.pendN, ?_, ?_, ?_, ?_, ?_, ?_, ?_, ?_, ?_, ?_⟩⟩
  · rw [List.nodup_append]
    refine ⟨G.nodup, by simp, ?_⟩
    rintro x hx y hy rfl
    simp only [List.mem_singleton] at hy
    subst hy; exact hr hx
  · intro q hq
    rw [List.mem_append, List.mem_singleton] at hq
    by_cases hqr : q = r
    · subst hqr
      refine ⟨l, hpath, G.nodupT, fun b => ⟨fun h => ⟨by simp, hin b h⟩, fun h => ?_⟩⟩
      rcases hroot b q h.2 with ⟨h, _⟩ | ⟨h1, h2⟩
      · exact h
      · exact absurd (G.root b q h1 h2).1 hr
    · have hq' : q ∈ sl := hq.resolve_right hqr
      obtain ⟨l', h1, h2, h3⟩ := G.chain q hq'
      refine ⟨l', h1.congr_mem _ _ (fun c hc => (hout c ((h3 c).1 hc).1).2), h2, fun b => ?_⟩
      rw [h3]
      constructor
      · rintro ⟨k1, k2⟩; exact ⟨by simp, by rw [(hout b k1).1]; exact k2⟩
      · rintro ⟨_, k2⟩
        rcases hroot b q k2 with ⟨_, h⟩ | h
        · exact absurd h hqr
        · exact h
  · intro b q _ h
    rw [hk, hsp]
    rcases hroot b q h with ⟨h, rfl⟩ | ⟨h1, h2⟩
    · exact ⟨by simp, G.trans b h⟩
    · have := G.root b q h1 h2
      exact ⟨by simp [this.1], this.2⟩
  · simp
  · intro b h
    have hb : b ∉ l := by intro hb; rw [hin b hb] at h; cases h
    rw [(hout b hb).1] at h; rw [(hout b hb).2]
    exact G.next b h
  · intro b; rw [hsp, e11]; exact G.nb b
  · intro c; rw [e1, hsp, hk, ho]; exact I.blists.dyn c
  · intro c; rw [e2, hsp, hk]; exact I.blists.stat c
  · intro c; rw [e3, e8, hf]; exact I.shapes.dyn c
  · intro c; rw [e4, e8, hf]; exact I.shapes.stat c
  · intro c x; rw [hx, e8]; exact I.shapes.att c x
  · intro c; rw [hx]; exact I.shapes.attN c
  · intro x; rw [e8, hx]; exact I.shapes.own x
  · intro c x; rw [ho, hx, e8]; exact I.shapes.full c x
  · intro x; rw [e8, hk, hsp]; exact I.shapes.home x
  · intro c; rw [e5, e9, ho, how]; exact I.joints.mem c
  · intro c x; rw [hcn', e9]; exact I.joints.list c x
  · intro c; rw [hcn']; exact I.joints.listN c
  · rw [e9]; exact I.joints.ne
  · intro c; rw [e9, hk, hsp, hk, hsp]; exact I.joints.home c
  · rw [e9]; intro c h
    exact ⟨htg _ _ (I.joints.group c h).1 (hj c h).1, htg _ _ (I.joints.group c h).2 (hj c h).2⟩
  · intro r; rw [e6, ht, e10, ho, how]; exact I.arbs.arb r
  · intro c r; rw [hab, ht, e10]; exact I.arbs.list c r
  · intro c; rw [hab]; exact I.arbs.listN c
  · intro r h; rw [e7, ht]; exact I.arbs.pend r h
  · intro r; rw [e7, ht, e10, ho, how]; exact I.arbs.cach r
  · intro r; rw [hlv, e10]; exact I.arbs.ne r
  · intro r; rw [hlv, e10, e8]; exact I.arbs.shp r
  · intro r r'; rw [hlv, hlv, e10]; exact I.arbs.uniq r r'
  · intro r; rw [ht, e10]; intro h
    exact ⟨htg _ _ (I.arbs.group r h).1 (ha r h).1, htg _ _ (I.arbs.group r h).2 (ha r h).2⟩
  · intro r; rw [hlv, e12, e13]; exact I.arbs.ids r

end Sp
end Cm
