import Verif.Props.SpaceCalls

/-!
# C27, C28, C29: calls on a space that leave something behind or crash

`none` is a crash, see `Model/Space.lean`.
-/

set_option linter.unusedSectionVars false
set_option linter.unusedSimpArgs false
set_option linter.unusedVariables false

namespace Cm
open Sp Spec

variable {K : Type} [Zero K] [LT K] [DecidableRel (α := K) (· < ·)] [Add K] [DecidableEq K]

/-! ### C27: `RemoveBodyWithShapes` -/

/-- The loop over the shapes, from place `i` on: of `len - i` shapes it removes the larger half. -/
theorem removeShapesLoop_ok (b : Nat) : ∀ (n : Nat) (s : St K) (i : Nat), Good s → (∀ x ∈ (s.bd b).shapes, (s.sh x).space = true) →
    (s.bd b).shapes.length - i < n →
    ∃ s', removeShapesLoop n s b i = some s' ∧ Good s' ∧ (s'.bd b).shapes.length = (s.bd b).shapes.length - ((s.bd b).shapes.length - i + 1) / 2 ∧
      (∀ x ∈ (s'.bd b).shapes, x ∈ (s.bd b).shapes) ∧ (∀ x, (s'.sh x).space = true ↔ ((s.sh x).space = true ∧ (x ∈ (s.bd b).shapes → x ∈ (s'.bd b).shapes))) ∧
      (∀ c, (s'.bd c).kind = (s.bd c).kind ∧ (s'.bd c).space = (s.bd c).space)
  | 0, s, i, _, _, h => absurd h (Nat.not_lt_zero _)
  | n + 1, s, i, G, hall, h => by
    rw [removeShapesLoop]
    rcases Nat.lt_or_ge i (s.bd b).shapes.length with hi | hi
    · rw [List.getElem?_eq_getElem hi]
      have hx : (s.bd b).shapes[i] ∈ (s.bd b).shapes := List.getElem_mem hi
      generalize (s.bd b).shapes[i] = x at hx ⊢
      have hb : (s.sh x).body = b := G.inv.shapes.att b x hx
      obtain ⟨s1, e1, G1, D⟩ := removeShape_good G (hall x hx)
      have hlen : (s1.bd b).shapes.length = (s.bd b).shapes.length - 1 := by
        have h1 := D.exact
        rw [hb] at h1
        rw [← h1, (swapRemove_perm hx).length_eq, List.length_erase_of_mem hx]
      have hall1 : ∀ y ∈ (s1.bd b).shapes, (s1.sh y).space = true := fun y hy =>
        (D.sh y).2.2 ⟨hall y ((D.shapes b y).1 hy).1, ((D.shapes b y).1 hy).2⟩
      obtain ⟨s', e', G', l', m', sp', k'⟩ := removeShapesLoop_ok b n s1 (i + 1) G1 hall1 (by omega)
      refine ⟨s', by simp only [e1, e'], G', by rw [l', hlen]; omega, fun y hy => ((D.shapes b y).1 (m' y hy)).1, fun y => ?_, fun c => ?_⟩
      · rw [sp', (D.sh y).2, D.shapes b y]
        constructor
        · rintro ⟨⟨h1, h2⟩, h3⟩
          exact ⟨h1, fun h4 => h3 ⟨h4, h2⟩⟩
        · rintro ⟨h1, h2⟩
          refine ⟨⟨h1, ?_⟩, fun h4 => h2 h4.1⟩
          rintro rfl
          exact ((D.shapes b y).1 (m' y (h2 hx))).2 rfl
      · rw [(k' c).1, (k' c).2, (D.bd c).1, (D.bd c).2.2]; exact ⟨rfl, rfl⟩
    · rw [List.getElem?_eq_none hi]
      exact ⟨s, rfl, G, by omega, fun _ h => h, fun x => ⟨fun h => ⟨h, fun h => h⟩, fun h => h.1⟩, fun _ => ⟨rfl, rfl⟩⟩

/-- `RemoveBodyWithShapes` takes the body out of the space but leaves half of its shapes (rounded down) in the space,
still attached. -/
theorem C27_half_left {kind : Nat → Kind} {ops : List (Op K)} {s : St K} (h : ReachedBy kind ops s) (b : Nat)
    (hall : ∀ x ∈ (s.bd b).shapes, (s.sh x).space = true) :
    ∃ s', removeBodyWithShapes s b = some s' ∧ (s'.bd b).space = false ∧ (s'.bd b).shapes.length = (s.bd b).shapes.length / 2 ∧
      (∀ x ∈ (s'.bd b).shapes, x ∈ (s.bd b).shapes ∧ (s'.sh x).space = true) ∧
      (∀ x, (s'.sh x).space = true ↔ ((s.sh x).space = true ∧ (x ∈ (s.bd b).shapes → x ∈ (s'.bd b).shapes))) := by
  obtain ⟨G, A, J⟩ := h.all
  obtain ⟨s1, e1, G1, l1, m1, sp1, k1⟩ := removeShapesLoop_ok b ((s.bd b).shapes.length + 1) s 0 G hall (by omega)
  obtain ⟨s2, e2, _, w⟩ := activate_ok G1.ok b
  have q := w.quiet
  have hr : removeBodyWithShapes s b = some ((if (s2.bd b).kind = Kind.static then { s2 with stat := s2.stat.erase b } else { s2 with dyn := s2.dyn.erase b }).setB b fun d => { d with space := false }) := by
    simp only [removeBodyWithShapes, e1, removeBody, e2]
  set s3 := (if (s2.bd b).kind = Kind.static then { s2 with stat := s2.stat.erase b } else { s2 with dyn := s2.dyn.erase b }).setB b fun d => { d with space := false } with h3
  have hsh : s3.sh = s1.sh := by rw [h3, ← q.sh]; split <;> rfl
  have hbd : (s3.bd b).space = false ∧ (s3.bd b).shapes = (s1.bd b).shapes := by
    rw [h3, ← (q.bd b).2.1]; split <;> simp [St.setB]
  refine ⟨s3, hr, hbd.1, by rw [hbd.2, l1]; omega, fun x hx => ?_, fun x => ?_⟩
  · rw [hbd.2] at hx
    refine ⟨m1 x hx, ?_⟩
    rw [hsh, sp1]; exact ⟨hall x (m1 x hx), fun _ => hx⟩
  · rw [hsh, sp1, hbd.2]

/-- Full statement: afterwards neither the body nor any of its shapes is in the space. It holds for at most one shape. -/
theorem C27_one_shape_partial {kind : Nat → Kind} {ops : List (Op K)} {s : St K} (h : ReachedBy kind ops s) (b : Nat)
    (hall : ∀ x ∈ (s.bd b).shapes, (s.sh x).space = true) (h1 : (s.bd b).shapes.length ≤ 1) :
    ∃ s', removeBodyWithShapes s b = some s' ∧ (s'.bd b).space = false ∧ ∀ x ∈ (s.bd b).shapes, (s'.sh x).space = false := by
  obtain ⟨s', e, h2, h3, h4, h5⟩ := C27_half_left h b hall
  refine ⟨s', e, h2, fun x hx => ?_⟩
  rw [← Bool.not_eq_true]
  intro hn
  have := ((h5 x).1 hn).2 hx
  have hz : (s'.bd b).shapes = [] := List.length_eq_zero_iff.1 (by omega)
  rw [hz] at this; cases this

/-- With two shapes or more some shape of the body stays in the space. -/
theorem C27_shapes_left {kind : Nat → Kind} {ops : List (Op K)} {s : St K} (h : ReachedBy kind ops s) (b : Nat)
    (hall : ∀ x ∈ (s.bd b).shapes, (s.sh x).space = true) (h1 : 2 ≤ (s.bd b).shapes.length) :
    ∃ s' x, removeBodyWithShapes s b = some s' ∧ x ∈ (s.bd b).shapes ∧ (s'.sh x).space = true := by
  obtain ⟨s', e, h2, h3, h4, h5⟩ := C27_half_left h b hall
  obtain ⟨x, hx⟩ := List.exists_mem_of_length_pos (l := (s'.bd b).shapes) (by omega)
  exact ⟨s', x, e, (h4 x hx).1, (h4 x hx).2⟩

/-- A body with three shapes. -/
def demoThree : List (Op ℚ) := demoAdd 1 ++ [.attach 2 1, .addShape 2, .attach 3 1, .addShape 3]

theorem demoThree_allowed : Allowed demoNew demoThree := okAll_allowed _ _ _ demo_good demo_agree (by decide +kernel)

example : (match runAll demoNew demoThree with
    | none => none
    | some s => (removeBodyWithShapes s 1).map fun s' => ((s.bd 1).shapes, (s'.bd 1).shapes, s'.dyn, s'.dynIdx)) = some ([1, 2, 3], [3], [], [3]) := by
  decide +kernel

/-! ### C28: `SetType` -/

/-- Full statement: `SetType` on a body in a space, awake or asleep, leaves the body in the list, and its shapes in the
index, of the new type. It holds if the body is awake (and the other conditions of `SetTypeOk`). -/
theorem C28_awake_partial {kind : Nat → Kind} {ops : List (Op K)} {s : St K} (h : ReachedBy kind ops s) (b : Nat) (k : Kind) (ho : SetTypeOk s b)
    (hb : (s.bd b).space = true) :
    ∃ s', setType s b k = some s' ∧ (s'.bd b).kind = k ∧ (b ∈ s'.dyn ↔ k ≠ .static) ∧ (b ∈ s'.stat ↔ k = .static) ∧
      ∀ x ∈ (s.bd b).shapes, (x ∈ s'.dynIdx ↔ k ≠ .static) ∧ (x ∈ s'.statIdx ↔ k = .static) := by
  obtain ⟨G, A, J⟩ := h.all
  obtain ⟨s', e, G', A'⟩ := run_good G A (.setType b k) ho
  have e' : setType s b k = some s' := e
  have hk : (s'.bd b).kind = k := by rw [A'.kinds]; simp [Listed.next]
  have hsp : (s'.bd b).space = true := by rw [A'.bodies, ← hb, A.bodies]; rfl
  have hroot : (s'.bd b).root = none := by
    by_contra hn
    exact hn (((setType_held G ho e').root b hn).trans ho.awake)
  have hoff : ¬ off s' [] b := by rw [off_nil]; simp [hroot]
  refine ⟨s', e', hk, ?_, ?_, fun x hx => ?_⟩
  · rw [G'.inv.blists.dyn, hsp, hk]; tauto
  · rw [G'.inv.blists.stat, hsp, hk]; tauto
  · have hxb : x ∈ (s'.bd b).shapes := by
      rw [A'.home]; rw [A.home] at hx; exact hx
    have hxs : (s'.sh x).space = true := by
      have := ho.full hb x hx
      rw [A.shapes] at this; rw [A'.shapes, ← this]; rfl
    have hbb := G'.inv.shapes.att b x hxb
    rw [G'.inv.shapes.dyn, G'.inv.shapes.stat, hbb, hxs]
    unfold frozen
    rw [hk]
    tauto

/-- On a sleeping body with shapes `SetType` to another type always crashes. -/
theorem C28_asleep_crashes {kind : Nat → Kind} {ops : List (Op K)} {s : St K} (h : ReachedBy kind ops s) (b : Nat) (k : Kind)
    (ha : asleep s b) (hk : k ≠ .dynamic) (hs : (s.bd b).shapes ≠ []) : setType s b k = none := by
  obtain ⟨G, A, J⟩ := h.all
  obtain ⟨r, hr⟩ := Option.ne_none_iff_exists'.1 ha
  obtain ⟨_, kd, hsp⟩ := G.inv.groups.root b r (by simp) hr
  have hact : activate (s.setB b fun d => { d with kind := k, idle := 0 }) b = some (s.setB b fun d => { d with kind := k, idle := 0 }) := by
    unfold activate
    rw [if_pos (by simp [St.setB, hk])]
  obtain ⟨x, l, hxl⟩ := List.exists_cons_of_ne_nil hs
  have hx : x ∈ (s.bd b).shapes := by rw [hxl]; simp
  have hnd : x ∉ s.dynIdx := by
    rw [G.inv.shapes.dyn, G.inv.shapes.att b x hx]
    rintro ⟨_, h2⟩
    exact h2 (Or.inr (off_nil.2 ha))
  simp only [setType, kd, hsp, hact, reduceCtorEq, if_false, if_true, ne_eq, not_false_eq_true, Bool.true_eq_false, hk.symm]
  by_cases hkk : k = .static
  · simp [hkk, St.setB, hxl, moveShapes, idxRemove, hnd]
  · simp [hkk, St.setB, hxl, moveShapes, idxRemove, hnd]

/-- On a sleeping body without shapes it returns, but the body is left asleep with a type that cannot sleep. -/
theorem C28_asleep_bare {kind : Nat → Kind} {ops : List (Op K)} {s : St K} (h : ReachedBy kind ops s) (b : Nat) (k : Kind)
    (ha : asleep s b) (hk : k ≠ .dynamic) (hs : (s.bd b).shapes = []) : ∃ s', setType s b k = some s' ∧ (s'.bd b).kind = k ∧ asleep s' b := by
  obtain ⟨G, A, J⟩ := h.all
  obtain ⟨r, hr⟩ := Option.ne_none_iff_exists'.1 ha
  obtain ⟨_, kd, hsp⟩ := G.inv.groups.root b r (by simp) hr
  have hact : activate (s.setB b fun d => { d with kind := k, idle := 0 }) b = some (s.setB b fun d => { d with kind := k, idle := 0 }) := by
    unfold activate
    rw [if_pos (by simp [St.setB, hk])]
  simp only [setType, kd, hsp, hact, reduceCtorEq, if_false, if_true, ne_eq, not_false_eq_true, Bool.true_eq_false, hk.symm]
  by_cases hkk : k = .static
  · simp [hkk, St.setB, hs, moveShapes, asleep]; simpa [asleep] using ha
  · simp [hkk, St.setB, hs, moveShapes, asleep]; simpa [asleep] using ha

example : ReachedBy demoKind demoSleep demoEnd ∧ asleep demoEnd 1 ∧ (demoEnd.bd 1).shapes = [1] ∧ setType demoEnd 1 .kinematic = none :=
  ⟨demo_reached, by show _ ≠ _; decide +kernel, by decide +kernel,
    C28_asleep_crashes demo_reached 1 .kinematic (by show _ ≠ _; decide +kernel) (by decide) (by decide +kernel)⟩

/-- The witness for the awake case: the falling bodies 1 to 4 of the example before they sleep. -/
example : (runAll demoNew (demoRest ++ [.setType 2 .static])).map (fun s => (s.dyn, s.stat, s.dynIdx, s.statIdx)) =
    some ([1, 3, 4], [0, 2], [1, 3, 4], [0, 2]) := by decide +kernel

/-- Why `SetTypeOk` asks about joints: a sleeping body is jointed to the static body 0, which is made dynamic. `SetType`
returns, but the next step ends with "Inconsistency detected in the contact graph" (space.go:1197). -/
theorem C28_static_to_dynamic_fatal : ∃ s' inp, ReachedBy demoKind demoSleep demoEnd ∧ setType demoEnd 0 .dynamic = some s' ∧
    (demoStep (1/4) [] = .step inp) ∧ step s' inp = none := by
  refine ⟨(setType demoEnd 0 .dynamic).get (by decide +kernel), _, demo_reached, (Option.some_get _).symm, rfl, ?_⟩
  have : ((setType demoEnd 0 .dynamic).bind fun s => step s { dt := 1/4, moving := fun _ => false, hits := [], lateWake := [] }).isNone = true := by decide +kernel
  rw [← Option.some_get (x := setType demoEnd 0 .dynamic) (by decide +kernel), Option.bind_some, Option.isNone_iff_eq_none] at this
  exact this

/-- Why `StepOk` asks that the shapes of a body be in the space: a body with a shape that was created but not added
crashes the step in which it falls asleep. -/
theorem C78_unadded_shape : (runAll demoNew (demoAdd 1 ++ [.attach 2 1, demoStep (1/4) [], demoStep (1/4) [], demoStep (1/4) []])).isSome = true ∧
    runAll demoNew (demoAdd 1 ++ [.attach 2 1, demoStep (1/4) [], demoStep (1/4) [], demoStep (1/4) [], demoStep (1/4) []]) = none := by
  refine ⟨by decide +kernel, ?_⟩
  rw [← Option.isNone_iff_eq_none]; decide +kernel

/-! ### C29: a new shape on a sleeping body -/

omit [Zero K] [LT K] [DecidableRel (α := K) (· < ·)] [Add K] in
theorem wakeShapes_fails {x : Nat} : ∀ (l : List Nat) (s : St K), x ∈ l → x ∉ s.statIdx → wakeShapes s l = none
  | [], s, h, _ => by cases h
  | y :: l, s, h, hn => by
    rw [wakeShapes]
    unfold idxRemove
    by_cases hy : y ∈ s.statIdx
    · rw [if_pos hy]
      have hxy : x ≠ y := fun k => hn (k ▸ hy)
      exact wakeShapes_fails l _ ((List.mem_cons.1 h).resolve_left hxy) (fun k => hn (List.mem_of_mem_erase k))
    · rw [if_neg hy]

omit [Zero K] [LT K] [DecidableRel (α := K) (· < ·)] [Add K] in
theorem wakeShapes_frame : ∀ (l : List Nat) (s s' : St K), wakeShapes s l = some s' → s'.bd = s.bd ∧ s'.locked = s.locked ∧ ∀ x, x ∈ s'.statIdx → x ∈ s.statIdx
  | [], s, s', h => by simp only [wakeShapes, Option.some.injEq] at h; subst h; exact ⟨rfl, rfl, fun _ h => h⟩
  | y :: l, s, s', h => by
    rw [wakeShapes] at h
    unfold idxRemove at h
    by_cases hy : y ∈ s.statIdx
    · rw [if_pos hy] at h
      obtain ⟨h1, h2, h3⟩ := wakeShapes_frame l _ s' h
      exact ⟨h1, h2, fun x hx => List.mem_of_mem_erase (h3 x hx)⟩
    · rw [if_neg hy] at h; cases h

omit [Zero K] [LT K] [DecidableRel (α := K) (· < ·)] [Add K] in
theorem wakeArbs_frame (b : Nat) : ∀ (l : List Nat) (s : St K), (wakeArbs s b l).bd = s.bd ∧ (wakeArbs s b l).locked = s.locked ∧ (wakeArbs s b l).statIdx = s.statIdx
  | [], s => ⟨rfl, rfl, rfl⟩
  | r :: l, s => by
    rw [wakeArbs]
    obtain ⟨h1, h2, h3⟩ := wakeArbs_frame b l (if b = (s.ar r).a ∨ (s.bd (s.ar r).a).kind = .static then restoreArb s r else s)
    rw [h1, h2, h3]
    split
    · unfold restoreArb
      cases s.lookup (s.ar r).sa (s.ar r).sb <;> exact ⟨rfl, rfl, rfl⟩
    · exact ⟨rfl, rfl, rfl⟩

omit [Zero K] [LT K] [DecidableRel (α := K) (· < ·)] [Add K] in
theorem wakeCons_frame (b : Nat) : ∀ (l : List Nat) (s : St K), (wakeCons s b l).bd = s.bd ∧ (wakeCons s b l).locked = s.locked ∧ (wakeCons s b l).statIdx = s.statIdx
  | [], s => ⟨rfl, rfl, rfl⟩
  | r :: l, s => by
    rw [wakeCons]
    obtain ⟨h1, h2, h3⟩ := wakeCons_frame b l (if b = (s.cn r).a ∨ (s.bd (s.cn r).a).kind = .static then { s with cons := s.cons ++ [r] } else s)
    rw [h1, h2, h3]
    split <;> exact ⟨rfl, rfl, rfl⟩

omit [LT K] [DecidableRel (α := K) (· < ·)] [Add K] in
/-- Waking a group fails if a member has a shape that is not in the static index. -/
theorem activateLoop_fails {b x : Nat} : ∀ (n : Nat) (s : St K) (o : Option Nat) (p : List Nat), Path s o p → p.Nodup → b ∈ p →
    x ∈ (s.bd b).shapes → x ∉ s.statIdx → s.locked = 0 → activateLoop n s o = none
  | 0, s, o, p, _, _, _, _, _, _ => by rw [activateLoop]
  | n + 1, s, none, p, hp, hnd, hb, hx, hn, hl => by
    cases p with
    | nil => cases hb
    | cons c l => exact hp.elim
  | n + 1, s, some c, p, hp, hnd, hb, hx, hn, hl => by
    cases p with
    | nil => cases hb
    | cons d l =>
      obtain ⟨rfl, hp⟩ := hp
      rw [activateLoop]
      set s0 := s.setB c fun d => { d with idle := 0, root := none, next := none } with hs0
      have hb0 : ∀ e, (s0.bd e).shapes = (s.bd e).shapes := by intro e; simp only [hs0, St.setB]; split <;> simp_all
      have hn0 : ∀ e, e ≠ c → (s0.bd e).next = (s.bd e).next := by intro e he; simp only [hs0, St.setB, if_neg he]
      have hl0 : s0.locked = 0 := hl
      rw [spaceActivate, if_neg (by simpa using hl0), wakeBody]
      cases hw : wakeShapes { s0 with dyn := s0.dyn ++ [c] } (s0.bd c).shapes with
      | none => rfl
      | some s1 =>
        simp only
        obtain ⟨f1, f2, f3⟩ := wakeShapes_frame _ _ _ hw
        obtain ⟨g1, g2, g3⟩ := wakeArbs_frame c (s0.bd c).arbs s1
        obtain ⟨k1, k2, k3⟩ := wakeCons_frame c (s0.bd c).cons (wakeArbs s1 c (s0.bd c).arbs)
        have hbc : b ≠ c := by
          rintro rfl
          rw [hb0, wakeShapes_fails _ _ hx (by exact hn)] at hw
          cases hw
        have hbd : (wakeCons (wakeArbs s1 c (s0.bd c).arbs) c (s0.bd c).cons).bd = s0.bd := by rw [k1, g1, f1]
        refine activateLoop_fails (x := x) n _ _ l ?_ (List.nodup_cons.1 hnd).2 ((List.mem_cons.1 hb).resolve_left hbc) ?_ ?_ ?_
        · refine Path.congr_mem _ _ (fun e he => ?_) hp
          rw [hbd]; exact hn0 e (fun k => (List.nodup_cons.1 hnd).1 (k ▸ he))
        · rw [hbd, hb0]; exact hx
        · rw [k3, g3]; exact fun k => hn (f3 x k)
        · rw [k2, g2, f2]; exact hl0

/-- Full statement: creating a shape on a sleeping body and adding it wakes the body and adds the shape. In fact it always
crashes. -/
theorem C29_always_crashes {kind : Nat → Kind} {ops : List (Op K)} {s : St K} (h : ReachedBy kind ops s) (b x : Nat)
    (ha : asleep s b) (hx : ∀ c, x ∉ (s.bd c).shapes) : addShape (attach s x b) x = none := by
  obtain ⟨G, A, J⟩ := h.all
  obtain ⟨r, hr⟩ := Option.ne_none_iff_exists'.1 ha
  obtain ⟨hrs, p, hp, hnd, hm, hlen, hrr⟩ := G.inv.groupList (by simp) hr
  obtain ⟨_, kd, hsp⟩ := G.inv.groups.root b r (by simp) hr
  have hns : x ∉ s.statIdx := by
    rw [G.inv.shapes.stat]; rintro ⟨h1, _⟩
    exact hx _ (G.inv.shapes.own x h1)
  have e1 : ((attach s x b).sh x).body = b := by simp [attach, St.setB, St.setS]
  have e2 : ((attach s x b).bd b).kind = .dynamic := by simp [attach, St.setB, St.setS, kd]
  unfold addShape
  simp only [e1, e2, reduceCtorEq, if_false]
  have hact : activate (attach s x b) b = none := by
    unfold activate
    rw [if_neg (by simp [e2])]
    set s1 := (attach s x b).setB b fun d => { d with idle := 0 } with hs1
    have n1 : ∀ c, (s1.bd c).next = (s.bd c).next ∧ (s1.bd c).root = (s.bd c).root := by
      intro c; simp only [hs1, attach, St.setB, St.setS]; split <;> simp_all
    have n2 : x ∈ (s1.bd b).shapes := by simp [hs1, attach, St.setB, St.setS]
    have n3 : s1.statIdx = s.statIdx := rfl
    have n4 : s1.locked = 0 := G.unlocked
    have hfail : activateLoop (s1.nb + 1) s1 (some r) = none :=
      activateLoop_fails (b := b) (x := x) (s1.nb + 1) s1 (some r) p (Path.congr (fun e => (n1 e).1) _ _ hp) hnd ((hm b).2 ⟨by simp, hr⟩) n2 (by rw [n3]; exact hns) n4
    simp only [(n1 b).2, hr, (n1 r).2, hrr, Option.isSome_some, if_true, hfail]
  rw [hact]

/-- On an awake body it works. -/
theorem C29_awake_partial {kind : Nat → Kind} {ops : List (Op K)} {s : St K} (h : ReachedBy kind ops s) (b x : Nat)
    (ha : ¬ asleep s b) (hb : (s.bd b).space = true) (hx : ∀ c, x ∉ (s.bd c).shapes) :
    ∃ s', addShape (attach s x b) x = some s' ∧ (s'.sh x).space = true ∧ x ∈ (s'.bd b).shapes ∧ ¬ asleep s' b := by
  obtain ⟨G, A, J⟩ := h.all
  have ho : (Op.attach x b : Op K).Allowed s := ⟨hx, by simpa [asleep] using ha⟩
  obtain ⟨s1, e1, G1, A1⟩ := run_good G A (.attach x b) ho
  have e1' : attach s x b = s1 := by simpa [Op.run] using e1
  have hb1 : (s1.sh x).body = b := by rw [← e1']; simp [attach, St.setB, St.setS]
  have hs0 : (s.sh x).space = false := by
    by_contra hn; exact hx _ (G.inv.shapes.own x (by simpa using hn))
  have ho2 : (Op.addShape x : Op K).Allowed s1 := by
    refine ⟨?_, ?_, ?_⟩
    · rw [hb1, ← e1']; simp [attach, St.setB, St.setS]
    · rw [← e1']; simpa [attach, St.setB, St.setS] using hs0
    · intro _; rw [hb1, ← e1']; simpa [attach, St.setB, St.setS] using hb
  obtain ⟨s2, e2, G2, A2⟩ := run_good G1 A1 (.addShape x) ho2
  refine ⟨s2, by rw [e1']; exact e2, ?_, ?_, ?_⟩
  · rw [A2.shapes]; simp [Listed.next]
  · rw [A2.home]; simp [Listed.next]
  · intro hn
    apply hn
    have hw : (s1.bd b).root = none := by rw [← e1']; simpa [attach, St.setB, St.setS, asleep] using ha
    have e2' : addShape s1 x = some s2 := e2
    unfold addShape at e2'
    simp only [hb1] at e2'
    split at e2'
    · simp only [Option.some.injEq] at e2'; rw [← e2']; exact hw
    · obtain ⟨s3, e3, _, w⟩ := activate_ok G1.ok b
      simp only [e3, Option.some.injEq] at e2'
      rw [← e2']
      show (s3.bd b).root = none
      rw [w.root b]
      split
      · rfl
      · exact hw

example : addShape (attach demoEnd 6 1) 6 = none := by decide +kernel

end Cm
