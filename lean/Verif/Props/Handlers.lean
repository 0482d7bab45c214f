import Verif.Model.Handlers
import Verif.Proofs.HashSet
import Mathlib.Tactic.Common
/-! # C03, C04, C60: handler registry and callback dispatch -/
set_option linter.unusedSimpArgs false
namespace Cm
open HashSet Handlers Spec

namespace Spec
/-- The unordered pairs `{a,b}` and `{c,d}` are equal. -/
def SamePair (a b c d : CType) : Prop := (a = c ∧ b = d) ∨ (a = d ∧ b = c)

instance (a b c d : CType) : Decidable (SamePair a b c d) := by unfold SamePair; infer_instance

/-- The record a registration would store. -/
def recordOf : Registration → Handler
  | .pair a b p u => ⟨a, b, p, u⟩
  | .wild a p u => ⟨a, wildcard, p, u⟩

/-- The first handler registered for the unordered pair `{a, b}`. -/
def registeredFor (rs : List Registration) (a b : CType) : Option Handler :=
  (rs.map recordOf).find? (fun h => decide (SamePair h.typeA h.typeB a b))

/-- Has a wildcard handler been registered? -/
def hasWild (rs : List Registration) : Bool := rs.any (fun r => match r with | .wild .. => true | _ => false)
end Spec

theorem handlerEq_iff (a b : Handler) : handlerEq a b = true ↔ SamePair b.typeA b.typeB a.typeA a.typeB := by
  unfold handlerEq SamePair
  simp only [Bool.or_eq_true, Bool.and_eq_true, beq_iff_eq]
  constructor
  · rintro (⟨h1, h2⟩ | ⟨h1, h2⟩)
    · exact Or.inl ⟨h1.symm, h2.symm⟩
    · exact Or.inr ⟨h1.symm, h2.symm⟩
  · rintro (⟨h1, h2⟩ | ⟨h1, h2⟩)
    · exact Or.inl ⟨h1.symm, h2.symm⟩
    · exact Or.inr ⟨h1.symm, h2.symm⟩

theorem hashPair_comm (a b : BitVec 64) : hashPair a b = hashPair b a := by
  unfold hashPair; exact BitVec.xor_comm _ _

attribute [local irreducible] hashPair in
theorem handler_consistent : Consistent handlerEq handlerHash := by
  constructor
  · intro p q e h1 h2
    rw [handlerEq_iff] at h1 h2
    refine congrArg BitVec.toNat ?_
    unfold SamePair at h1 h2
    rcases h1 with ⟨a1, a2⟩ | ⟨a1, a2⟩ <;> rcases h2 with ⟨b1, b2⟩ | ⟨b1, b2⟩ <;>
      rw [← a1, ← a2, ← b1, ← b2]
    all_goals exact hashPair_comm _ _
  · intro p q e e' h1 h2 h3
    rw [handlerEq_iff] at *
    unfold SamePair at *
    rcases h1 with ⟨a1, a2⟩ | ⟨a1, a2⟩ <;> rcases h2 with ⟨b1, b2⟩ | ⟨b1, b2⟩ <;>
      rcases h3 with ⟨c1, c2⟩ | ⟨c1, c2⟩ <;> simp_all

/-- The registry represents the list of registrations made so far. -/
structure RegRel (rs : List Registration) (r : Reg) : Prop where
  inv : HashSet.Inv handlerEq handlerHash r.set
  mem : ∀ h, h ∈ abs r.set ↔ registeredFor rs h.typeA h.typeB = some h
  len : (abs r.set).length ≤ rs.length
  wild : r.usesWildcards = hasWild rs
  dflt : r.dflt = if hasWild rs then dfltHandler else doNothing

theorem Spec.SamePair.refl (a b : CType) : SamePair a b a b := Or.inl ⟨rfl, rfl⟩
theorem Spec.SamePair.symm {a b c d : CType} (h : SamePair a b c d) : SamePair c d a b := by
  rcases h with ⟨h1, h2⟩ | ⟨h1, h2⟩
  · exact Or.inl ⟨h1.symm, h2.symm⟩
  · exact Or.inr ⟨h2.symm, h1.symm⟩
theorem Spec.SamePair.trans {a b c d e f : CType} (h : SamePair a b c d) (h' : SamePair c d e f) : SamePair a b e f := by
  unfold SamePair at *
  rcases h with ⟨h1, h2⟩ | ⟨h1, h2⟩ <;> rcases h' with ⟨g1, g2⟩ | ⟨g1, g2⟩ <;> simp_all

theorem registeredFor_pair {rs : List Registration} {a b : CType} {h : Handler} (e : registeredFor rs a b = some h) :
    SamePair h.typeA h.typeB a b := by
  have := List.find?_some e
  simpa using this

theorem registeredFor_congr (rs : List Registration) {a b c d : CType} (h : SamePair a b c d) :
    registeredFor rs a b = registeredFor rs c d := by
  unfold registeredFor
  congr 1
  funext x
  have : SamePair x.typeA x.typeB a b ↔ SamePair x.typeA x.typeB c d := ⟨fun k => k.trans h, fun k => k.trans h.symm⟩
  simp [this]

theorem regRel_new : RegRel [] newReg := by
  refine ⟨inv_new, ?_, ?_, rfl, rfl⟩
  · intro h
    simp [newReg, abs, HashSet.new, registeredFor]
  · simp [newReg, abs, HashSet.new]

theorem registeredFor_snoc (rs : List Registration) (x : Registration) (a b : CType) :
    registeredFor (rs ++ [x]) a b = (registeredFor rs a b).or
      (if SamePair (recordOf x).typeA (recordOf x).typeB a b then some (recordOf x) else none) := by
  unfold registeredFor
  rw [List.map_append, List.find?_append]
  congr 1
  simp only [List.map_cons, List.map_nil, List.find?_cons, List.find?_nil]
  split <;> rename_i h
  · rw [if_pos (by simpa using h)]
  · rw [if_neg (by simpa using h)]

/-- Adding one record. -/
theorem add_rel {rs : List Registration} {r : Reg} (hr : RegRel rs r) (x : Registration) (hlen : rs.length + 1 < 1610612741)
    (hsz : r.set.size ≤ 1610612741) :
    ∃ r', addHandler r (recordOf x) = some r' ∧
      HashSet.Inv handlerEq handlerHash r'.1.set ∧
      (∀ h, h ∈ abs r'.1.set ↔ registeredFor (rs ++ [x]) h.typeA h.typeB = some h) ∧
      (abs r'.1.set).length ≤ rs.length + 1 ∧ r'.1.usesWildcards = r.usesWildcards ∧ r'.1.dflt = r.dflt ∧
      registeredFor (rs ++ [x]) (recordOf x).typeA (recordOf x).typeB = some r'.2 ∧ r'.1.set.size ≤ 1610612741 := by
  set u := recordOf x with hu
  have hself : handlerEq u u = true := (handlerEq_iff u u).2 (SamePair.refl _ _)
  have hcard : (setStep handlerEq (abs r.set) (.insert u u)).length < 1610612741 := by
    simp only [setStep]
    have := hr.len
    split
    · omega
    · simp only [List.length_cons]; omega
  obtain ⟨⟨s', o⟩, hs'⟩ := step_total' handler_consistent (op := .insert u u) (abs r.set) (List.Perm.refl _) hr.inv hsz hcard
  obtain ⟨hi, hp, ho⟩ := step_refines handler_consistent (op := .insert u u) hself hr.inv (abs r.set) (List.Perm.refl _) hs'
  have hz := step_size hsz hs'
  have hins : ∃ e, r.set.insert handlerEq (handlerHash u) u u = some (s', e) ∧ o = .elt (some e) := by
    have := hs'
    simp only [step, Option.map_eq_some_iff, Prod.mk.injEq] at this
    obtain ⟨⟨a, b⟩, h1, h2, h3⟩ := this
    subst h2
    exact ⟨b, h1, h3.symm⟩
  obtain ⟨e, hins, rfl⟩ := hins
  refine ⟨({ r with set := s' }, e), by simp [addHandler, hins], hi, ?_, ?_, rfl, rfl, ?_, hz⟩
  · intro h
    rw [hp.mem_iff, registeredFor_snoc]
    simp only [setStep]
    by_cases hany : (abs r.set).any (handlerEq u) = true
    · rw [if_pos hany, hr.mem]
      obtain ⟨e', he', heq⟩ := List.any_eq_true.1 hany
      have hpair := (handlerEq_iff u e').1 heq
      constructor
      · intro k; rw [k]; rfl
      · intro k
        cases hc : registeredFor rs h.typeA h.typeB with
        | some z => rw [hc] at k; simpa using k
        | none =>
          rw [hc] at k
          simp only [Option.none_or] at k
          split at k
          · rename_i hsp
            -- u is already represented by e'
            rw [hr.mem] at he'
            rw [registeredFor_congr rs (hpair.trans hsp), hc] at he'
            cases he'
          · cases k
    · rw [if_neg hany, List.mem_cons, hr.mem]
      have hnone : ∀ z, registeredFor rs u.typeA u.typeB = some z → False := by
        intro z hz'
        apply hany
        rw [List.any_eq_true]
        have hzp := registeredFor_pair hz'
        refine ⟨z, (hr.mem z).2 ?_, (handlerEq_iff u z).2 hzp⟩
        rw [registeredFor_congr rs hzp]; exact hz'
      constructor
      · rintro (rfl | k)
        · have : registeredFor rs u.typeA u.typeB = none := by
            cases hc : registeredFor rs u.typeA u.typeB with
            | none => rfl
            | some z => exact (hnone z hc).elim
          rw [this, Option.none_or, if_pos (SamePair.refl _ _)]
        · rw [k]; rfl
      · intro k
        cases hc : registeredFor rs h.typeA h.typeB with
        | some z => rw [hc] at k; right; simpa using k
        | none =>
          rw [hc] at k
          simp only [Option.none_or] at k
          split at k
          · left; cases k; rfl
          · cases k
  · have := hr.len
    rw [hp.length_eq]
    simp only [setStep]
    split
    · omega
    · simp only [List.length_cons]; omega
  · rw [registeredFor_snoc]
    simp only [setOut] at ho
    by_cases hany : (abs r.set).any (handlerEq u) = true
    · rw [if_pos hany] at ho
      obtain ⟨e', he', heq, hee⟩ := ho
      cases hee
      have hpair := (handlerEq_iff u e).1 heq
      rw [registeredFor_congr rs hpair.symm, (hr.mem e).1 he']; rfl
    · rw [if_neg hany] at ho
      cases ho
      have : registeredFor rs u.typeA u.typeB = none := by
        cases hc : registeredFor rs u.typeA u.typeB with
        | none => rfl
        | some z =>
          exfalso
          apply hany
          rw [List.any_eq_true]
          have hzp := registeredFor_pair hc
          exact ⟨z, (hr.mem z).2 (by rw [registeredFor_congr rs hzp]; exact hc), (handlerEq_iff u z).2 hzp⟩
      rw [this, Option.none_or, if_pos (SamePair.refl _ _)]

theorem hasWild_snoc (rs : List Registration) (x : Registration) :
    hasWild (rs ++ [x]) = (hasWild rs || (match x with | .wild .. => true | _ => false)) := by
  simp [hasWild]

theorem register_rel {rs : List Registration} {r : Reg} (hr : RegRel rs r) (x : Registration) (hlen : rs.length + 1 < 1610612741)
    (hsz : r.set.size ≤ 1610612741) :
    ∃ r', register r x = some r' ∧ RegRel (rs ++ [x]) r'.1 ∧
      registeredFor (rs ++ [x]) (recordOf x).typeA (recordOf x).typeB = some r'.2 ∧ r'.1.set.size ≤ 1610612741 := by
  cases x with
  | pair a b p u =>
    obtain ⟨r', h1, h2, h3, h4, h5, h6, h7, h8⟩ := add_rel hr (.pair a b p u) hlen hsz
    refine ⟨r', h1, ⟨h2, h3, by simpa using h4, ?_, ?_⟩, h7, h8⟩
    · rw [h5, hr.wild, hasWild_snoc]; simp
    · rw [h6, hr.dflt, hasWild_snoc]; simp
  | wild a p u =>
    set r0 : Reg := if r.usesWildcards then r else { r with usesWildcards := true, dflt := dfltHandler } with hr0
    have e1 : r0.set = r.set := by rw [hr0]; split <;> rfl
    have e2 : r0.usesWildcards = true := by rw [hr0]; split <;> simp_all
    have e3 : r0.dflt = dfltHandler := by
      rw [hr0]; split
      · rename_i hw; rw [hr.dflt, ← hr.wild, hw]; rfl
      · rfl
    obtain ⟨r', h1, h2, h3, h4, h5, h6, h7, h8⟩ := add_rel hr (.wild a p u) hlen hsz
    have : addHandler r0 ⟨a, wildcard, p, u⟩ = some ({ r0 with set := r'.1.set }, r'.2) := by
      have h1' := h1
      simp only [addHandler, recordOf, Option.bind_eq_bind, Option.bind_eq_some_iff] at h1' ⊢
      obtain ⟨y, hy, hh⟩ := h1'
      refine ⟨y, by rw [e1]; exact hy, ?_⟩
      simp only [Option.pure_def, Option.some.injEq] at hh ⊢
      rw [← hh]
    refine ⟨_, this, ⟨h2, h3, by simpa using h4, ?_, ?_⟩, h7, h8⟩
    · rw [hasWild_snoc]; simp [e2]
    · rw [hasWild_snoc]; simp [e3]

theorem registerAll_rel : ∀ (xs rs : List Registration) (r : Reg), RegRel rs r → rs.length + xs.length < 1610612741 →
    r.set.size ≤ 1610612741 → ∃ r' hs, registerAll r xs = some (r', hs) ∧ RegRel (rs ++ xs) r' ∧ hs.length = xs.length ∧
      (∀ k (hk : k < xs.length) (h : k < hs.length),
        registeredFor (rs ++ xs) (recordOf xs[k]).typeA (recordOf xs[k]).typeB = some hs[k])
  | [], rs, r, hr, _, _ => ⟨r, [], rfl, by simpa using hr, rfl, by simp⟩
  | x :: xs, rs, r, hr, hl, hsz => by
    simp only [List.length_cons] at hl
    obtain ⟨⟨r1, h1⟩, e1, g1, f1, z1⟩ := register_rel hr x (by omega) hsz
    obtain ⟨r2, hs, e2, g2, l2, f2⟩ := registerAll_rel xs (rs ++ [x]) r1 g1 (by simp; omega) z1
    have hassoc : rs ++ [x] ++ xs = rs ++ x :: xs := by simp
    refine ⟨r2, h1 :: hs, by simp [registerAll, e1, e2], by rw [← hassoc]; exact g2, by simp [l2], ?_⟩
    intro k hk hk'
    cases k with
    | zero =>
      simp only [List.getElem_cons_zero]
      rw [← hassoc]
      have : ∀ (l m : List Registration) a b z, registeredFor l a b = some z → registeredFor (l ++ m) a b = some z := by
        intro l m a b z hz
        unfold registeredFor at *
        rw [List.map_append, List.find?_append, hz]; rfl
      exact this _ _ _ _ _ f1
    | succ k =>
      simp only [List.getElem_cons_succ]
      rw [← hassoc]
      exact f2 k (by simpa using hk) (by simpa using hk')

theorem lookup_rel {rs : List Registration} {r : Reg} (hr : RegRel rs r) (a b : CType) (d : Handler) :
    lookup r a b d = some ((registeredFor rs a b).getD d) := by
  obtain ⟨ch, hch, hfind⟩ := chain_find handler_consistent hr.inv (⟨a, b, 0, 0⟩ : Handler)
  have hst : ∃ o, step handlerEq handlerHash r.set (.find (⟨a, b, 0, 0⟩ : Handler)) = some (r.set, o) ∧
      ∃ e, r.set.find handlerEq (handlerHash ⟨a, b, 0, 0⟩) ⟨a, b, 0, 0⟩ = some e ∧ o = .elt e := by
    refine ⟨_, ?_, (ch.find? (fun b' => handlerEq ⟨a, b, 0, 0⟩ b'.elt)).map HBin.elt, ?_, rfl⟩
    · simp [step, HashSet.find, hch]
    · simp [HashSet.find, hch]
  obtain ⟨o, hst, e, he, rfl⟩ := hst
  obtain ⟨_, _, ho⟩ := step_refines handler_consistent (op := .find (⟨a, b, 0, 0⟩ : Handler)) trivial hr.inv (abs r.set)
    (List.Perm.refl _) hst
  have hl : lookup r a b d = some (e.getD d) := by simp [lookup, he]
  rw [hl]
  congr 2
  simp only [setOut] at ho
  split at ho
  · obtain ⟨z, hz, hze, rfl⟩ := ho
    have hp := (handlerEq_iff _ _).1 hze
    rw [← (hr.mem z).1 hz]
    exact registeredFor_congr rs hp
  · rename_i hany
    subst ho
    cases hc : registeredFor rs a b with
    | none => rfl
    | some z =>
      exfalso
      apply hany
      have hzp := registeredFor_pair hc
      rw [List.any_eq_true]
      exact ⟨z, (hr.mem z).2 (by rw [registeredFor_congr rs hzp]; exact hc), (handlerEq_iff _ z).2 hzp⟩

/-! ## C03 -/

/-- After any registrations: looking up `{a,b}` in either order gives the handler first registered for exactly this
unordered pair, or the default given; and each registration returned the handler now found for its pair, in either order. -/
theorem C03_registry (rs : List Registration) (hlen : rs.length < 1610612741) :
    ∃ r hs, registerAll newReg rs = some (r, hs) ∧ hs.length = rs.length ∧
    (∀ a b d, lookup r a b d = some ((registeredFor rs a b).getD d) ∧ lookup r b a d = lookup r a b d) ∧
    (∀ k (hk : k < rs.length) (h : k < hs.length) d,
      lookup r (recordOf rs[k]).typeA (recordOf rs[k]).typeB d = some hs[k] ∧
      lookup r (recordOf rs[k]).typeB (recordOf rs[k]).typeA d = some hs[k]) := by
  obtain ⟨r, hs, h1, h2, h3, h4⟩ := registerAll_rel rs [] newReg regRel_new (by simpa using hlen) (by simp [newReg, HashSet.new])
  rw [List.nil_append] at h2 h4
  have symm : ∀ a b d, lookup r b a d = lookup r a b d := by
    intro a b d
    rw [lookup_rel h2, lookup_rel h2, registeredFor_congr rs (Or.inr ⟨rfl, rfl⟩)]
  refine ⟨r, hs, h1, h3, fun a b d => ⟨lookup_rel h2 a b d, symm a b d⟩, ?_⟩
  intro k hk h d
  have := h4 k hk h
  constructor
  · rw [lookup_rel h2, this]; rfl
  · rw [symm, lookup_rel h2, this]; rfl

/-- A later registration never changes what an existing pair finds. -/
theorem C03_undisturbed (rs more : List Registration) (hlen : rs.length + more.length < 1610612741) (a b : CType) (h : Handler)
    (hreg : registeredFor rs a b = some h) :
    ∃ r hs, registerAll newReg (rs ++ more) = some (r, hs) ∧ ∀ d, lookup r a b d = some h ∧ lookup r b a d = some h := by
  obtain ⟨r, hs, h1, _, h3, _⟩ := C03_registry (rs ++ more) (by simpa using hlen)
  refine ⟨r, hs, h1, fun d => ?_⟩
  have : registeredFor (rs ++ more) a b = some h := by
    unfold registeredFor at *
    rw [List.map_append, List.find?_append, hreg]; rfl
  rw [(h3 a b d).2, (h3 a b d).1, this]
  exact ⟨rfl, rfl⟩

example : registeredFor [.pair 1 2 10 0, .wild 1 11 0, .pair 2 1 12 5] 2 1 = some ⟨1, 2, 10, 0⟩ ∧
    registeredFor [.pair 1 2 10 0, .wild 1 11 0, .pair 2 1 12 5] 1 wildcard = some ⟨1, wildcard, 11, 0⟩ ∧
    registeredFor [.pair 1 2 10 0, .wild 1 11 0, .pair 2 1 12 5] 2 2 = none := by decide

/-! ## C04 -/

theorem callWilds_spec (k : Kind) (hA hB : Handler) : ∀ (cs : List Bool) (arb : Arb), arb.handlerA = some hA → arb.handlerB = some hB →
    ∃ es, callWilds k arb cs = some (es, arb) ∧
    ∀ e ∈ es, (e.role = .wildA ∧ e.handler = hA ∧ e.data = .user hA.userData ∧ e.shapes = arb.shapes ∧ e.kind = k) ∨
      (e.role = .wildB ∧ e.handler = hB ∧ e.data = .user hB.userData ∧ e.shapes = (arb.shapes.2, arb.shapes.1) ∧ e.kind = k)
  | [], arb, _, _ => ⟨[], rfl, by simp⟩
  | c :: cs, arb, h1, h2 => by
    obtain ⟨es, e1, e2⟩ := callWilds_spec k hA hB cs arb h1 h2
    cases c with
    | false =>
      refine ⟨⟨.wildA, k, hA, .user hA.userData, arb.shapes⟩ :: es, by simp [callWilds, callWildA, h1, e1], ?_⟩
      intro e he
      rcases List.mem_cons.1 he with rfl | he
      · exact Or.inl ⟨rfl, rfl, rfl, rfl, rfl⟩
      · exact e2 e he
    | true =>
      refine ⟨⟨.wildB, k, hB, .user hB.userData, (arb.shapes.2, arb.shapes.1)⟩ :: es, ?_, ?_⟩
      · obtain ⟨a, b, c, d, e, f⟩ := arb
        cases f <;> simp_all [callWilds, callWildB, Arb.shapes]
      · intro e he
        rcases List.mem_cons.1 he with rfl | he
        · exact Or.inr ⟨rfl, rfl, rfl, rfl, rfl⟩
        · exact e2 e he

/-- After any registrations, for any two shapes with non-reserved types and any previous arbiter state, a run of the
registered pair handler making any sequence of wildcard calls: the pair handler sees the shapes in the order of its
types; each wildcard handler (when one is registered) sees first the shape of the type it was registered for; the
arbiter (with its swap flag) is unchanged afterwards. -/
theorem C04_shape_order (rs : List Registration) (hlen : rs.length < 1610612741) (ty : Nat → CType) (a b : Nat)
    (ha : ty a ≠ wildcard) (hb : ty b ≠ wildcard) (h : Handler) (hreg : registeredFor rs (ty a) (ty b) = some h)
    (hptr : ∀ x ∈ rs, 1 < (recordOf x).ptr) (arb0 : Arb) (k : Kind) (cs : List Bool) :
    ∃ r hs arb es, registerAll newReg rs = some (r, hs) ∧ update r ty arb0 a b = some arb ∧
    dispatch k arb cs = some (es, arb) ∧
    ∀ e ∈ es, [e.shapes.1, e.shapes.2].Perm [a, b] ∧
      (e.role = .main → e.handler = h ∧ ty e.shapes.1 = h.typeA ∧ ty e.shapes.2 = h.typeB) ∧
      (e.role ≠ .main → e.handler = ((registeredFor rs (ty e.shapes.1) wildcard).getD doNothing)) := by
  obtain ⟨r, hs, h1, _, h3, _⟩ := C03_registry rs hlen
  obtain ⟨r', hs', h1', h2, _, _⟩ := registerAll_rel rs [] newReg regRel_new (by simpa using hlen) (by simp [newReg, HashSet.new])
  rw [h1] at h1'; cases h1'
  rw [List.nil_append] at h2
  have hpair := registeredFor_pair hreg
  have hmem : ∃ x ∈ rs, recordOf x = h := by
    have := List.mem_of_find?_eq_some hreg
    simpa using this
  obtain ⟨x, hx, rfl⟩ := hmem
  have hp := hptr x hx
  have hd : r.dflt.ptr ≤ 1 := by rw [h2.dflt]; split <;> simp [dfltHandler, doNothing]
  have hne : ((recordOf x).ptr != r.dflt.ptr) = true := by simp; omega
  set hw := recordOf x with hhw
  have hnw : hw.typeA ≠ wildcard := by
    rcases hpair with ⟨e1, e2⟩ | ⟨e1, e2⟩
    · rw [e1]; exact ha
    · rw [e1]; exact hb
  by_cases hsw : ty a = hw.typeA
  · -- not swapped
    have hB : ty b = hw.typeB := by
      rcases hpair with ⟨e1, e2⟩ | ⟨e1, e2⟩
      · exact e2.symm
      · rw [e2, hsw, e1]
    have hu : update r ty arb0 a b = some ⟨a, b, some hw, some ((registeredFor rs (ty a) wildcard).getD doNothing), some ((registeredFor rs (ty b) wildcard).getD doNothing), false⟩ := by
      have hs1 : (ty a != hw.typeA && hw.typeA != wildcard) = false := by simp [hsw]
      simp only [update, (h3 _ _ _).1, hreg, Option.getD_some, Option.bind_eq_bind, Option.bind_some, hs1, hne]
      simp
    obtain ⟨es, e1, e2⟩ := callWilds_spec k ((registeredFor rs (ty a) wildcard).getD doNothing)
      ((registeredFor rs (ty b) wildcard).getD doNothing) cs ⟨a, b, some hw, some ((registeredFor rs (ty a) wildcard).getD doNothing), some ((registeredFor rs (ty b) wildcard).getD doNothing), false⟩ rfl rfl
    refine ⟨r, hs, _, ⟨.main, k, hw, mainData k hw, (a, b)⟩ :: es, h1, hu, ?_, ?_⟩
    · simp [dispatch, e1, Arb.shapes]
    · intro e he
      rcases List.mem_cons.1 he with rfl | he
      · exact ⟨List.Perm.refl _, fun _ => ⟨rfl, hsw, hB⟩, fun k => absurd rfl k⟩
      · rcases e2 e he with ⟨r1, r2, _, r3, _⟩ | ⟨r1, r2, _, r3, _⟩
        · rw [r3, r2]
          exact ⟨List.Perm.refl _, fun k => (by rw [r1] at k; cases k), fun _ => rfl⟩
        · rw [r3, r2]
          exact ⟨List.Perm.swap _ _ _, fun k => (by rw [r1] at k; cases k), fun _ => rfl⟩
  · -- swapped
    have hAB : hw.typeA = ty b ∧ hw.typeB = ty a := by
      rcases hpair with ⟨e1, e2⟩ | ⟨e1, e2⟩
      · exact absurd e1.symm hsw
      · exact ⟨e1, e2⟩
    have hu : update r ty arb0 a b = some ⟨a, b, some hw, some ((registeredFor rs (ty b) wildcard).getD doNothing), some ((registeredFor rs (ty a) wildcard).getD doNothing), true⟩ := by
      have hs1 : (ty a != hw.typeA && hw.typeA != wildcard) = true := by simp [hsw, hnw]
      simp only [update, (h3 _ _ _).1, hreg, Option.getD_some, Option.bind_eq_bind, Option.bind_some, hs1, hne]
      simp
    obtain ⟨es, e1, e2⟩ := callWilds_spec k ((registeredFor rs (ty b) wildcard).getD doNothing)
      ((registeredFor rs (ty a) wildcard).getD doNothing) cs ⟨a, b, some hw, some ((registeredFor rs (ty b) wildcard).getD doNothing), some ((registeredFor rs (ty a) wildcard).getD doNothing), true⟩ rfl rfl
    refine ⟨r, hs, _, ⟨.main, k, hw, mainData k hw, (b, a)⟩ :: es, h1, hu, ?_, ?_⟩
    · simp [dispatch, e1, Arb.shapes]
    · intro e he
      rcases List.mem_cons.1 he with rfl | he
      · exact ⟨List.Perm.swap _ _ _, fun _ => ⟨rfl, hAB.1.symm, hAB.2.symm⟩, fun k => absurd rfl k⟩
      · rcases e2 e he with ⟨r1, r2, _, r3, _⟩ | ⟨r1, r2, _, r3, _⟩
        · rw [r3, r2]
          exact ⟨List.Perm.swap _ _ _, fun k => (by rw [r1] at k; cases k), fun _ => rfl⟩
        · rw [r3, r2]
          exact ⟨List.Perm.refl _, fun k => (by rw [r1] at k; cases k), fun _ => rfl⟩

/-- The same when no handler is registered for the pair and wildcards are in use: the default handler calls the wildcard
handlers, each of which sees first the shape of its own type. -/
theorem C04_default_wildcards (rs : List Registration) (hlen : rs.length < 1610612741) (ty : Nat → CType) (a b : Nat)
    (hreg : registeredFor rs (ty a) (ty b) = none) (hw : hasWild rs = true) (arb0 : Arb) (k : Kind) (cs : List Bool) :
    ∃ r hs arb es, registerAll newReg rs = some (r, hs) ∧ update r ty arb0 a b = some arb ∧
    dispatch k arb cs = some (es, arb) ∧
    ∀ e ∈ es, [e.shapes.1, e.shapes.2].Perm [a, b] ∧ (e.role = .main → e.handler = dfltHandler) ∧
      (e.role ≠ .main → e.handler = ((registeredFor rs (ty e.shapes.1) wildcard).getD doNothing)) := by
  obtain ⟨r, hs, h1, _, h3, _⟩ := C03_registry rs hlen
  obtain ⟨r', hs', h1', h2, _, _⟩ := registerAll_rel rs [] newReg regRel_new (by simpa using hlen) (by simp [newReg, HashSet.new])
  rw [h1] at h1'; cases h1'
  rw [List.nil_append] at h2
  have hd : r.dflt = dfltHandler := by rw [h2.dflt, hw]; rfl
  have hwc : r.usesWildcards = true := by rw [h2.wild, hw]
  have hu : update r ty arb0 a b = some ⟨a, b, some dfltHandler, some ((registeredFor rs (ty a) wildcard).getD doNothing), some ((registeredFor rs (ty b) wildcard).getD doNothing), false⟩ := by
    simp [update, (h3 _ _ _).1, hreg, hd, hwc, dfltHandler]
  obtain ⟨es, e1, e2⟩ := callWilds_spec k ((registeredFor rs (ty a) wildcard).getD doNothing)
    ((registeredFor rs (ty b) wildcard).getD doNothing) cs ⟨a, b, some dfltHandler, some ((registeredFor rs (ty a) wildcard).getD doNothing), some ((registeredFor rs (ty b) wildcard).getD doNothing), false⟩ rfl rfl
  refine ⟨r, hs, _, ⟨.main, k, dfltHandler, mainData k dfltHandler, (a, b)⟩ :: es, h1, hu, ?_, ?_⟩
  · simp [dispatch, e1, Arb.shapes]
  · intro e he
    rcases List.mem_cons.1 he with rfl | he
    · exact ⟨List.Perm.refl _, fun _ => rfl, fun k => absurd rfl k⟩
    · rcases e2 e he with ⟨r1, r2, _, r3, _⟩ | ⟨r1, r2, _, r3, _⟩
      · rw [r3, r2]
        exact ⟨List.Perm.refl _, fun k => (by rw [r1] at k; cases k), fun _ => rfl⟩
      · rw [r3, r2]
        exact ⟨List.Perm.swap _ _ _, fun k => (by rw [r1] at k; cases k), fun _ => rfl⟩

example : ∃ (rs : List Registration) (ty : Nat → CType), rs.length < 1610612741 ∧ ty 0 ≠ wildcard ∧ ty 1 ≠ wildcard ∧
    registeredFor rs (ty 0) (ty 1) = some ⟨2, 1, 10, 0⟩ ∧ (∀ x ∈ rs, 1 < (recordOf x).ptr) ∧ hasWild rs = true ∧
    registeredFor rs (ty 0) (ty 2) = none :=
  ⟨[.pair 2 1 10 0, .wild 1 11 0], fun i => if i = 0 then 1 else if i = 1 then 2 else 3, by decide, by decide, by decide,
    by decide, by decide, by decide, by decide⟩

/-- The reserved type really has to be excluded: with a handler registered for the types (wildcard, 1) and shapes of types 1
and wildcard the order is wrong. -/
theorem C04_needs_unreserved :
    ∃ (rs : List Registration) (ty : Nat → CType) (r : Reg) (hs : List Handler) (arb : Arb) (es : List Entry),
      registerAll newReg rs = some (r, hs) ∧ update r ty ⟨0, 0, none, none, none, false⟩ 0 1 = some arb ∧
      dispatch .begin arb [] = some (es, arb) ∧ ∃ e ∈ es, e.role = .main ∧ ty e.shapes.1 ≠ e.handler.typeA :=
  ⟨[.pair wildcard 1 10 0], fun i => if i = 0 then 1 else wildcard, _, _, _, _, rfl, rfl, rfl, _, List.mem_cons_self, rfl, by decide⟩

/-! ## C60 -/

/-- Every callback of a pair or wildcard handler receives the handler's user data, except the pair handler's
`PostSolve`. The full property (also for `PostSolve`) is false: `C60_postSolve_gets_handler`. -/
theorem C60_user_data_partial (k : Kind) (arb : Arb) (cs : List Bool) (es : List Entry) (arb' : Arb)
    (h : dispatch k arb cs = some (es, arb')) : ∀ e ∈ es, (e.role ≠ .main ∨ k ≠ .postSolve) → e.data = .user e.handler.userData := by
  have hw : ∀ (cs : List Bool) (arb : Arb) es arb', callWilds k arb cs = some (es, arb') → ∀ e ∈ es, e.data = .user e.handler.userData := by
    intro cs
    induction cs with
    | nil => intro arb es arb' h e he; simp [callWilds] at h; rw [h.1] at he; simp at he
    | cons c cs ih =>
      intro arb es arb' h e he
      cases c
      · simp only [callWilds, callWildA, Bool.false_eq_true, if_false, Option.bind_eq_bind, Option.bind_eq_some_iff] at h
        obtain ⟨⟨e1, a1⟩, ⟨x, _, hx⟩, ⟨⟨e2, a2⟩, h2, h3⟩⟩ := h
        simp only [Option.pure_def, Option.some.injEq, Prod.mk.injEq] at h3 hx
        obtain ⟨rfl, rfl⟩ := h3
        rcases List.mem_cons.1 he with rfl | he
        · rw [← hx.1]
        · exact ih _ _ _ h2 e he
      · simp only [callWilds, callWildB, if_true, Option.bind_eq_bind, Option.bind_eq_some_iff] at h
        obtain ⟨⟨e1, a1⟩, ⟨x, _, hx⟩, ⟨⟨e2, a2⟩, h2, h3⟩⟩ := h
        simp only [Option.pure_def, Option.some.injEq, Prod.mk.injEq] at h3 hx
        obtain ⟨rfl, rfl⟩ := h3
        rcases List.mem_cons.1 he with rfl | he
        · rw [← hx.1]
        · exact ih _ _ _ h2 e he
  simp only [dispatch, Option.bind_eq_bind, Option.bind_eq_some_iff] at h
  obtain ⟨x, hx, ⟨⟨e2, a2⟩, h2, h3⟩⟩ := h
  simp only [Option.pure_def, Option.some.injEq, Prod.mk.injEq] at h3
  obtain ⟨rfl, rfl⟩ := h3
  intro e he hk
  rcases List.mem_cons.1 he with rfl | he
  · have : k ≠ .postSolve := by
      rcases hk with hk | hk
      · exact absurd rfl hk
      · exact hk
    cases k <;> simp_all [mainData]
  · exact hw _ _ _ _ h2 e he

example : ∃ es, dispatch .begin ⟨3, 4, some ⟨1, 2, 10, 77⟩, some ⟨1, wildcard, 11, 5⟩, some doNothing, false⟩ [false, true] =
    some (es, ⟨3, 4, some ⟨1, 2, 10, 77⟩, some ⟨1, wildcard, 11, 5⟩, some doNothing, false⟩) ∧ es.length = 3 := ⟨_, rfl, rfl⟩

/-- The property fails for `PostSolve`: whatever the user data, the pair handler's `PostSolve` gets the handler. -/
theorem C60_postSolve_gets_handler (arb : Arb) (h : Handler) (hh : arb.handler = some h) :
    ∃ es, dispatch .postSolve arb [] = some (es, arb) ∧ ∃ e ∈ es, e.role = .main ∧ e.handler = h ∧ e.data = .handler h.ptr ∧
      e.data ≠ .user h.userData :=
  ⟨[⟨.main, .postSolve, h, .handler h.ptr, arb.shapes⟩], by simp [dispatch, hh, callWilds, mainData], _, List.mem_cons_self, rfl,
    rfl, rfl, by simp⟩

example : (⟨3, 4, some ⟨1, 2, 10, 77⟩, none, none, false⟩ : Arb).handler = some ⟨1, 2, 10, 77⟩ := rfl

/-- **C04.** Only the greatest type is reserved: all others, and so the type 0 that shapes are made with, are types shapes may have. -/
theorem C04_reserved (t : CType) : t ≠ wildcard ↔ t.toNat < 2 ^ 64 - 1 := by
  have h : (wildcard : CType).toNat = 2 ^ 64 - 1 := by decide
  have := t.isLt
  constructor
  · intro hn
    have : t.toNat ≠ (wildcard : CType).toNat := fun e => hn (BitVec.eq_of_toNat_eq e)
    omega
  · rintro hl rfl
    omega

example : (0#64 : CType).toNat < 2 ^ 64 - 1 ∧ (0#64 : CType) ≠ wildcard := by decide

end Cm
