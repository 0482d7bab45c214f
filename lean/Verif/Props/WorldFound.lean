import Verif.Props.WorldIndex
import Verif.Props.DetectEdges
/-! # C113: in the whole simulation, the collisions solved are exactly those that are there -/
set_option linter.unusedSectionVars false
set_option linter.unusedSimpArgs false
set_option linter.unusedVariables false

namespace Cm
open Spec BBTree
variable {K : Type} [Field K] [LinearOrder K] [IsStrictOrderedRing K]

namespace Spec
/-- What the user may do. A step visits the moving shapes in any order, each once, and moves no body that carries an unmoving shape; such bodies are
not moved by the user either, or their shapes are taken out first. -/
def WOk (sc : Scene K) (r : Roster) : WorldOp K → Prop
  | .addDyn i => r i = none
  | .addStat i => r i = none
  | .removeDyn i => r i = some true
  | .removeStat i => r i = some false
  | .step t => t.order.Nodup ∧ (∀ i, i ∈ t.order ↔ r i = some true) ∧ ∀ j, r j = some false → (sc.figs j).body ∉ t.dyn
  | .setBody k b => Rigid b.tr ∧ ∀ j, r j = some false → (sc.figs j).body ≠ k
  | .setJoints _ barred => ∀ x y, barred x y = barred y x
  | .reindex _ => True

def WLegal (sc : Scene K) : Roster → List (WorldOp K) → Prop
  | _, [] => True
  | r, op :: ops => WOk sc r op ∧ WLegal sc (rosterStep r op) ops

/-- The classes of a scene are made by the constructors for good figures. -/
def Made (M : Mth K) (sc : Scene K) (fig : Nat → Figure K) : Prop := ∀ i, (fig i).Good ∧ (sc.figs i).cls = (fig i).made M
end Spec
/-- What holds after every such history. -/
structure Upright (sc : Scene K) (r : Roster) (w : World K) : Prop where
  index : ∃ m : Index K, Rel m w.tree ∧ (∀ i, (m i).map (·.1) = r i) ∧ ∀ j k b, m j = some (k, b) → b = (w.shapes j).bb
  still : ∀ j, r j = some false → w.shapes j = cachedShape sc.par.inf (w.bodies (sc.figs j).body).tr (sc.figs j).cls (sc.figs j).hash
  rigid : ∀ k, Rigid (w.bodies k).tr
  proper : ∀ i, (w.shapes i).bb.L ≤ (w.shapes i).bb.R ∧ (w.shapes i).bb.B ≤ (w.shapes i).bb.T
  barred : ∀ x y, w.barred x y = w.barred y x

theorem cached_proper {M : Mth K} {sc : Scene K} {fig : Nat → Figure K} (hm : Made M sc fig) (t : Transform K) (i : Nat) :
    let b := (cachedShape sc.par.inf t (sc.figs i).cls (sc.figs i).hash).bb
    b.L ≤ b.R ∧ b.B ≤ b.T := by
  dsimp only [cachedShape]
  rw [(hm i).2]
  exact figure_box_proper M _ t (hm i).1
theorem Spec.WOk.ordered {sc : Scene K} {r : Roster} {op : WorldOp K} (h : WOk sc r op) : Ordered sc r op := by
  cases op with
  | setBody k b => exact h.2
  | _ => exact h

theorem Spec.Made.boxed {M : Mth K} {sc : Scene K} {fig : Nat → Figure K} (hm : Made M sc fig) : Boxed sc := fun i t => cached_proper hm t i

theorem Upright.indexed {sc : Scene K} {r : Roster} {w : World K} (h : Upright sc r w) : Indexed sc r w := ⟨h.index, h.still, h.proper, h.barred⟩

theorem Indexed.upright {sc : Scene K} {r : Roster} {w : World K} (h : Indexed sc r w) (hr : ∀ k, Rigid (w.bodies k).tr) : Upright sc r w :=
  ⟨h.index, h.still, hr, h.proper, h.barred⟩

theorem positions_upright {M : Mth K} (hM : M.Lawful) (dyn : List Nat) (dt : K) (s : SolverState K) (h : ∀ k, Rigid (s.bodies k).tr) (k : Nat) :
    Rigid ((s.positions M dyn dt).bodies k).tr ∧ ((s.positions M dyn dt).bodies k).m = (s.bodies k).m ∧ (k ∉ dyn → (s.positions M dyn dt).bodies k = s.bodies k) := by
  unfold SolverState.positions
  dsimp only
  split
  · rename_i hk
    refine ⟨?_, rfl, fun h => absurd hk h⟩
    simp only [Body.updatePosition, Body.setTransform, Body.mkTransform, Transform.transpose, Rigid]
    exact ⟨hM.cos_sin _, trivial, trivial⟩
  · exact ⟨h k, rfl, fun _ => rfl⟩

theorem begun_upright {M : Mth K} (hM : M.Lawful) {sc : Scene K} {fig : Nat → Figure K} (hm : Made M sc fig) {r : Roster} {w : World K} (h : Upright sc r w)
    (inp : Tick K) (ho : WOk sc r (.step inp)) : Upright sc r (w.begun M sc inp) ∧
      ∀ i, r i ≠ none → (w.begun M sc inp).shapes i = cachedShape sc.par.inf ((w.begun M sc inp).bodies (sc.figs i).body).tr (sc.figs i).cls (sc.figs i).hash := by
  obtain ⟨h1, h2⟩ := begun_indexed M hm.boxed h.indexed inp ho
  exact ⟨h1.upright fun k => (positions_upright hM inp.dyn inp.dt ⟨w.bodies, [], w.joints⟩ h.rigid k).1, h2⟩

theorem run1_upright {M : Mth K} (hM : M.Lawful) {sc : Scene K} {fig : Nat → Figure K} (hm : Made M sc fig) {r : Roster} {w : World K} (h : Upright sc r w)
    (op : WorldOp K) (ho : WOk sc r op) : ∃ w', w.run1 M sc op = some w' ∧ Upright sc (rosterStep r op) w' := by
  obtain ⟨w', e, h'⟩ := run1_indexed M hm.boxed h.indexed op ho.ordered
  refine ⟨w', e, h'.upright fun k => ?_⟩
  cases op with
  | step inp =>
    simp only [World.run1, Option.some.injEq] at e
    subst e
    by_cases h0 : inp.dt = 0
    · have : w.step M sc inp = w := by unfold World.step; rw [if_pos h0]
      rw [this]; exact h.rigid k
    · rw [((step_frame M sc inp w h0).2.2.2.2 k).2.2.2]
      exact (begun_upright hM hm h inp ho).1.rigid k
  | setBody j b =>
    simp only [World.run1, Option.some.injEq] at e
    subst e
    show Rigid (if k = j then b else w.bodies k).tr
    split
    · exact ho.1
    · exact h.rigid k
  | reindex i => simp only [World.run1, Option.some.injEq] at e; subst e; exact h.rigid k
  | setJoints js barred => simp only [World.run1, Option.some.injEq] at e; subst e; exact h.rigid k
  | _ =>
    simp only [World.run1, Option.map_eq_some_iff] at e
    obtain ⟨t, -, rfl⟩ := e
    exact h.rigid k

/-- A history that keeps the rules does not crash. -/
theorem run_upright {M : Mth K} (hM : M.Lawful) {sc : Scene K} {fig : Nat → Figure K} (hm : Made M sc fig) (ops : List (WorldOp K)) : ∀ (r : Roster) (w : World K),
    Upright sc r w → WLegal sc r ops → ∃ w', w.run M sc ops = some w' ∧ Upright sc (rosterAfter r ops) w' := by
  induction ops with
  | nil => intro r w h _; exact ⟨w, rfl, h⟩
  | cons op ops ih =>
    intro r w h hl
    obtain ⟨w1, e1, h1⟩ := run1_upright hM hm h op hl.1
    obtain ⟨w2, e2, h2⟩ := ih _ _ h1 hl.2
    exact ⟨w2, by simp only [World.run, e1, e2], h2⟩

theorem init_upright (sc : Scene K) (bodies : Nat → Body K) (shapes : Nat → CShape K) (hb : ∀ k, Rigid (bodies k).tr)
    (hs : ∀ i, (shapes i).bb.L ≤ (shapes i).bb.R ∧ (shapes i).bb.B ≤ (shapes i).bb.T) : Upright sc (fun _ => none) (World.init bodies shapes) :=
  ⟨⟨emptyIndex, rel_init, fun _ => rfl, (fun _ _ _ h => by cases h)⟩, (fun _ h => by cases h), hb, hs, fun _ _ => rfl⟩

/-! ## The collisions of a step -/

namespace Spec
/-- Two shapes of the space, placed as their bodies are now, collide. -/
def Colliding (sc : Scene K) (fig : Nat → Figure K) (r : Roster) (w : World K) (i j : Nat) : Prop :=
  i ≠ j ∧ r i ≠ none ∧ r j ≠ none ∧ (r i = some true ∨ r j = some true) ∧ (sc.figs i).body ≠ (sc.figs j).body ∧
    Accepts (sc.figs i).filter (sc.figs j).filter ∧ w.barred (sc.figs i).body (sc.figs j).body = false ∧
    (fig i).Touch (w.bodies (sc.figs i).body).tr (w.bodies (sc.figs j).body).tr (fig j)

open Classical in
/-- What `C113` says of one step. -/
def StepExact (sc : Scene K) (fig : Nat → Figure K) (inp : Tick K) (r : Roster) (w w' : World K) : Prop :=
  ∃ found : List (Nat × Nat), found.Pairwise (fun p q => ¬ SameTwo p q) ∧ (∀ i j, (∃ p ∈ found, SameTwo p (i, j)) ↔ Colliding sc fig r w' i j) ∧
    w'.active = found.filter (fun p => decide (Wanted sc inp w p))
end Spec
namespace Spec
/-- `Collide` answers, and makes contacts exactly for the pairs that touch, for the pairs the broad phase reports in a step. -/
def Detects (M : Mth K) (sc : Scene K) (fig : Nat → Figure K) (r : Roster) (inp : Tick K) (w : World K) : Prop :=
  ∀ p ∈ w.calls M sc inp, r p.1 ≠ none → r p.2 ≠ none → (r p.1 = some true ∨ r p.2 = some true) → (sc.figs p.1).body ≠ (sc.figs p.2).body →
    Overlap ((w.begun M sc inp).shapes p.1).bb ((w.begun M sc inp).shapes p.2).bb →
    ∃ info, collide M sc.par.inf sc.tiny ((w.begun M sc inp).shapes p.1) ((w.begun M sc inp).shapes p.2)
        (if (w.begun M sc inp).tree.pairs.contains p then (w.begun M sc inp).ids p.1 p.2 else 0) = some info ∧
      (info.contacts ≠ [] ↔ (fig p.1).Touch ((w.begun M sc inp).bodies (sc.figs p.1).body).tr ((w.begun M sc inp).bodies (sc.figs p.2).body).tr (fig p.2))
end Spec
theorem calls_exact {M : Mth K} (hM : M.Lawful) {sc : Scene K} {fig : Nat → Figure K} (hm : Made M sc fig) {r : Roster} {w : World K} (h : Upright sc r w)
    (inp : Tick K) (ho : WOk sc r (.step inp)) (h0 : inp.dt ≠ 0) (hdet : Detects M sc fig r inp w) :
    (w.calls M sc inp).Pairwise (fun p q => ¬ SameTwo p q) ∧
    (∀ p ∈ w.calls M sc inp, p.1 ≠ p.2 ∧ r p.1 ≠ none ∧ r p.2 ≠ none ∧ (r p.1 = some true ∨ r p.2 = some true)) ∧
    (∀ p ∈ w.calls M sc inp, ((w.begun M sc inp).hit M sc p).isSome = true ↔ Colliding sc fig r (w.step M sc inp) p.1 p.2) ∧
    (∀ i j, Colliding sc fig r (w.step M sc inp) i j → Colliding sc fig r (w.step M sc inp) j i) ∧
    (∀ i j, Colliding sc fig r (w.step M sc inp) i j → (i, j) ∈ w.calls M sc inp ∨ (j, i) ∈ w.calls M sc inp) := by
  classical
  obtain ⟨e1, e2, e3, e4, e5⟩ := step_frame M sc inp w h0
  obtain ⟨hb, hcur⟩ := begun_upright hM hm h inp ho
  obtain ⟨m, hr, hm1, hm2⟩ := h.index
  have hmass : ∀ k, ((w.begun M sc inp).bodies k).m = (w.bodies k).m := fun k => (positions_upright hM inp.dyn inp.dt ⟨w.bodies, [], w.joints⟩ h.rigid k).2.1
  have hleg : Legal m (.reindexQuery inp.order (fun i => ((w.begun M sc inp).shapes i).bb) fun i => ((w.begun M sc inp).bodies (sc.figs i).body).v) := by
    refine ⟨hb.proper, ho.1, fun i => ?_⟩
    rw [ho.2.1, ← hm1]
    cases m i with
    | none => simp
    | some x => obtain ⟨b, bb⟩ := x; simp
  obtain ⟨c1, c2, c3, c4⟩ := rel_calls hr hleg
  have hcalls : (reindexQuery w.tree inp.order (fun i => ((w.begun M sc inp).shapes i).bb) fun i => ((w.begun M sc inp).bodies (sc.figs i).body).v).2 =
      w.calls M sc inp := rfl
  rw [hcalls] at c1 c2 c3 c4
  have dyn_of : ∀ i, r i = some true ↔ ∃ b, m i = some (true, b) := by
    intro i; rw [← hm1]
    cases m i with
    | none => simp
    | some x => obtain ⟨b, bb⟩ := x; simp
  have stat_of : ∀ i, r i = some false ↔ ∃ b, m i = some (false, b) := by
    intro i; rw [← hm1]
    cases m i with
    | none => simp
    | some x => obtain ⟨b, bb⟩ := x; simp
  have some_of : ∀ i, (m i).isSome → r i ≠ none := by
    intro i; rw [← hm1]
    cases m i <;> simp
  have hboxes : ∀ i, r i ≠ none → ((w.begun M sc inp).shapes i).bb = (((fig i).made M).cache sc.par.inf ((w.begun M sc inp).bodies (sc.figs i).body).tr).2 := by
    intro i hi; rw [hcur i hi, (hm i).2]; rfl
  have hhit : ∀ p ∈ w.calls M sc inp, ((w.begun M sc inp).hit M sc p).isSome = true ↔ Colliding sc fig r (w.step M sc inp) p.1 p.2 := by
    intro p hp
    obtain ⟨n1, n2, n3, n4⟩ := c2 p.1 p.2 hp
    have hrej := not_reject (fun x => (sc.figs x).body) (fun x => (sc.figs x).filter) (fun x => ((w.begun M sc inp).shapes x).bb) hb.proper (w.begun M sc inp).barred p.1 p.2
    have hbar : (w.begun M sc inp).barred = (w.step M sc inp).barred := e3.symm
    have htr : ∀ k, ((w.begun M sc inp).bodies k).tr = ((w.step M sc inp).bodies k).tr := fun k => (e5 k).2.2.2.symm
    rw [← dyn_of, ← dyn_of] at n4
    unfold World.hit World.answer
    cases hq : queryReject (fun x => (sc.figs x).body) (fun x => (sc.figs x).filter) (fun x => ((w.begun M sc inp).shapes x).bb) (w.begun M sc inp).barred p.1 p.2 with
    | true =>
      simp only [if_true, Option.filter_none, Option.isSome_none, Bool.false_eq_true, false_iff]
      rintro ⟨-, g2, g3, -, g5, g6, g7, g8⟩
      rw [← hbar] at g7
      have : Overlap ((w.begun M sc inp).shapes p.1).bb ((w.begun M sc inp).shapes p.2).bb := by
        rw [hboxes _ g2, hboxes _ g3, htr, htr]; exact touch_boxes M _ (hm _).1 (hm _).1 g8
      exact absurd (hrej.2 ⟨g5, g6, this, g7⟩) (by rw [hq]; simp)
    | false =>
      obtain ⟨g5, g6, g7, g8⟩ := hrej.1 hq
      obtain ⟨info, ei, hi⟩ := hdet p hp (some_of _ n2) (some_of _ n3) n4 g5 g7
      simp only [Bool.false_eq_true, if_false, ei]
      rw [htr, htr] at hi
      have : (Option.filter (fun info : Info K => !info.contacts.isEmpty) (some info)).isSome = true ↔ info.contacts ≠ [] := by
        simp only [Option.filter, Bool.not_eq_true', List.isEmpty_eq_false_iff]
        split <;> simp_all
      rw [this, hi]
      constructor
      · intro ht; exact ⟨n1, some_of _ n2, some_of _ n3, n4, g5, g6, by rw [← hbar]; exact g8, ht⟩
      · rintro ⟨-, -, -, -, -, -, -, ht⟩; exact ht
  have csymm : ∀ i j, Colliding sc fig r (w.step M sc inp) i j → Colliding sc fig r (w.step M sc inp) j i := by
    rintro i j ⟨g1, g2, g3, g4, g5, ⟨g6, g6', g6''⟩, g7, g8⟩
    refine ⟨g1.symm, g3, g2, g4.symm, g5.symm, ⟨?_, g6'', g6'⟩, by rw [e3, h.barred, ← e3]; exact g7, g8.symm⟩
    by_cases hz : (sc.figs j).filter.group = 0#64
    · exact .inl hz
    · refine .inr fun hE => ?_
      rcases g6 with g6 | g6
      · exact hz (hE.trans g6)
      · exact g6 hE.symm
  refine ⟨c1, fun p hp => ?_, hhit, csymm, fun i j hc => ?_⟩
  · obtain ⟨n1, n2, n3, n4⟩ := c2 p.1 p.2 hp
    rw [← dyn_of, ← dyn_of] at n4
    exact ⟨n1, some_of _ n2, some_of _ n3, n4⟩
  · have hov : Overlap ((w.begun M sc inp).shapes i).bb ((w.begun M sc inp).shapes j).bb := by
      obtain ⟨-, g2, g3, -, -, -, -, g8⟩ := hc
      rw [hboxes _ g2, hboxes _ g3]
      rw [(e5 _).2.2.2, (e5 _).2.2.2] at g8
      exact touch_boxes M _ (hm _).1 (hm _).1 g8
    have hmem : (i, j) ∈ w.calls M sc inp ∨ (j, i) ∈ w.calls M sc inp := by
      obtain ⟨g1, g2, g3, g4, -⟩ := hc
      have two : ∀ i j, r i = some true → r j ≠ none → i ≠ j → Overlap ((w.begun M sc inp).shapes i).bb ((w.begun M sc inp).shapes j).bb →
          (i, j) ∈ w.calls M sc inp ∨ (j, i) ∈ w.calls M sc inp := by
        intro i j hi hj hne hov
        rcases hrj : r j with _ | b
        · exact absurd hrj hj
        · cases b with
          | true => exact c3 i j hne ((dyn_of i).1 hi) ((dyn_of j).1 hrj) hov
          | false =>
            obtain ⟨b, hb'⟩ := (stat_of j).1 hrj
            refine c4 i j b ((dyn_of i).1 hi) hb' ?_
            have : ((w.begun M sc inp).shapes j) = w.shapes j := by
              show w.reshape sc inp _ j = _
              unfold World.reshape
              rw [if_neg]
              rw [ho.2.1, hrj]; simp
            rw [this, ← hm2 j _ b hb'] at hov
            exact hov
      rcases g4 with g4 | g4
      · exact two i j g4 g3 g1 hov
      · obtain ⟨q, h1, h2⟩ := hov
        exact (two j i g4 g2 g1.symm ⟨q, h2, h1⟩).symm
    exact hmem

theorem step_exact {M : Mth K} (hM : M.Lawful) {sc : Scene K} {fig : Nat → Figure K} (hm : Made M sc fig) {r : Roster} {w : World K} (h : Upright sc r w)
    (inp : Tick K) (ho : WOk sc r (.step inp)) (h0 : inp.dt ≠ 0) (hdet : Detects M sc fig r inp w) :
    StepExact sc fig inp r w (w.step M sc inp) := by
  classical
  obtain ⟨c1, -, hhit, csymm, hcall⟩ := calls_exact hM hm h inp ho h0 hdet
  obtain ⟨-, -, -, e4, -⟩ := step_frame M sc inp w h0
  have hmass : ∀ k, ((w.begun M sc inp).bodies k).m = (w.bodies k).m := fun k => (positions_upright hM inp.dyn inp.dt ⟨w.bodies, [], w.joints⟩ h.rigid k).2.1
  have hact : (w.step M sc inp).active = (w.calls M sc inp).filterMap ((w.begun M sc inp).solved M sc inp) := by
    rw [e4]
    exact ((meets_active M sc inp (w.calls M sc inp) (w.begun M sc inp) c1).1).trans (List.nil_append _)
  refine ⟨(w.calls M sc inp).filterMap fun p => ((w.begun M sc inp).hit M sc p).map fun info => info.pair p, ?_, ?_, ?_⟩
  · refine List.Pairwise.filterMap _ ?_ c1
    intro p q hpq p' hp' q' hq' hs
    simp only [Option.mem_def, Option.map_eq_some_iff] at hp' hq'
    obtain ⟨i1, -, rfl⟩ := hp'
    obtain ⟨i2, -, rfl⟩ := hq'
    apply hpq
    have a1 := info_pair i1 p
    have a2 := info_pair i2 q
    generalize i1.pair p = p' at a1 hs
    generalize i2.pair q = q' at a2 hs
    obtain ⟨p1, p2⟩ := p
    obtain ⟨q1, q2⟩ := q
    obtain ⟨p1', p2'⟩ := p'
    obtain ⟨q1', q2'⟩ := q'
    simp only [SameTwo, Prod.mk.injEq] at a1 a2 hs ⊢
    omega
  · intro i j
    constructor
    · rintro ⟨p', hp', hs⟩
      obtain ⟨p, hp, hp2⟩ := List.mem_filterMap.1 hp'
      obtain ⟨info, hi, rfl⟩ := Option.map_eq_some_iff.1 hp2
      have hc := (hhit p hp).1 (by rw [hi]; rfl)
      have a1 := info_pair info p
      generalize info.pair p = p' at a1 hs
      obtain ⟨p1, p2⟩ := p
      obtain ⟨p1', p2'⟩ := p'
      have : (p1 = i ∧ p2 = j) ∨ (p1 = j ∧ p2 = i) := by
        simp only [SameTwo, Prod.mk.injEq] at a1 hs ⊢; omega
      rcases this with ⟨rfl, rfl⟩ | ⟨rfl, rfl⟩
      · exact hc
      · exact csymm _ _ hc
    · intro hc
      have hmem := hcall i j hc
      have get : ∀ i j, (i, j) ∈ w.calls M sc inp → Colliding sc fig r (w.step M sc inp) i j →
          ∃ p ∈ (w.calls M sc inp).filterMap fun p => ((w.begun M sc inp).hit M sc p).map fun info => info.pair p, SameTwo p (i, j) := by
        intro i j hij hc
        obtain ⟨info, hi⟩ := Option.isSome_iff_exists.1 ((hhit (i, j) hij).2 hc)
        exact ⟨_, List.mem_filterMap.2 ⟨(i, j), hij, by rw [hi]; rfl⟩, info_pair info (i, j)⟩
      rcases hmem with hij | hij
      · exact get i j hij hc
      · obtain ⟨p, hp, hs⟩ := get j i hij (csymm _ _ hc)
        refine ⟨p, hp, ?_⟩
        simp only [SameTwo] at hs ⊢
        exact hs.symm
  · rw [hact, List.filter_filterMap]
    apply List.filterMap_congr
    intro p hp
    unfold World.solved
    cases (w.begun M sc inp).hit M sc p with
    | none => rfl
    | some info =>
      simp only [Option.map_some, Option.filter, decide_eq_true_eq]
      by_cases hw : Wanted sc inp w (info.pair p)
      · rw [if_pos ((passes_wanted M sc inp w _ info hmass).2 hw), if_pos hw]
      · rw [if_neg (fun h => hw ((passes_wanted M sc inp w _ info hmass).1 h)), if_neg hw]

/-! ## Balls, and balls with rods -/

theorem easy_sorted {M : Mth K} (hM : M.Lawful) (inf tiny : K) {t u : Transform K} (hu : Rigid u) {r : K} {c : V2 K} {s' : Figure K}
    (hs : (Figure.ball r c).Good) (hs' : s'.Good) (he : Figure.Easy (.ball r c) s') (h1 h2 : BitVec 64) (info : Info K) (hi : info.contacts = []) :
    ∃ info', collideSorted M inf tiny (cachedShape inf t ((Figure.ball r c).made M) h1) (cachedShape inf u (s'.made M) h2) info = some info' ∧
      (info'.contacts ≠ [] ↔ (Figure.ball r c).Touch t u s') := by
  have easy : ∀ (x : Thing K), x.Good → x.made M = s'.made M → (∀ q, x.Mid q ↔ s'.Mid q) → x.rad = s'.rad →
      ∃ info', collideSorted M inf tiny (cachedShape inf t ((Figure.ball r c).made M) h1) (cachedShape inf u (s'.made M) h2) info = some info' ∧
      (info'.contacts ≠ [] ↔ (Figure.ball r c).Touch t u s') := by
    intro x hx e1 e2 e3
    obtain ⟨info', e, h⟩ := sorted_ball hM inf tiny (t := t) hu (s := .ball r c) (s' := x) hs hx trivial h1 h2 info hi
    rw [e1] at e
    refine ⟨info', e, h.trans ?_⟩
    constructor
    · rintro ⟨p, q, hp, hq, hd⟩
      rw [e3] at hd
      exact ⟨p, q, hp, (e2 q).1 hq, hd.le, fun _ => hd⟩
    · rintro ⟨p, q, hp, hq, -, hd⟩
      refine ⟨p, q, hp, (e2 q).2 hq, ?_⟩
      rw [e3]; exact hd he
  cases s' with
  | ball r' c' => exact easy (.ball r' c') hs' rfl (fun q => Iff.rfl) rfl
  | rod a b r' => exact easy (.rod a b r') hs' rfl (fun q => Iff.rfl) rfl
  | poly v r' => exact absurd he (fun h => h)

theorem easy_pair {M : Mth K} (hM : M.Lawful) (inf tiny : K) {t u : Transform K} (ht : Rigid t) (hu : Rigid u) {s s' : Figure K} (hs : s.Good) (hs' : s'.Good)
    (he : Figure.Easy s s') (h1 h2 : BitVec 64) (id : Nat) :
    ∃ info, collide M inf tiny (cachedShape inf t (s.made M) h1) (cachedShape inf u (s'.made M) h2) id = some info ∧ (info.contacts ≠ [] ↔ s.Touch t u s') := by
  unfold collide
  cases s with
  | ball r c =>
    have ho : ¬ (cachedShape inf t ((Figure.ball r c).made M) h1).cls.order > (cachedShape inf u (s'.made M) h2).cls.order := by
      simp [cachedShape, Figure.made, Cls.cache, Cls.order]
    rw [if_neg ho]
    exact easy_sorted hM inf tiny hu hs hs' he h1 h2 _ rfl
  | rod a b r =>
    cases s' with
    | ball r' c' =>
      have ho : (cachedShape inf t ((Figure.rod a b r).made M) h1).cls.order > (cachedShape inf u ((Figure.ball r' c').made M) h2).cls.order := by
        simp [cachedShape, Figure.made, Cls.cache, Cls.order]
      rw [if_pos ho]
      obtain ⟨info, e, h⟩ := easy_sorted hM inf tiny ht hs' hs he.symm h2 h1 ⟨true, id, V2.zero, []⟩ rfl
      exact ⟨info, e, h.trans ⟨fun h => h.symm, fun h => h.symm⟩⟩
    | rod a' b' r' => exact absurd he (fun h => h)
    | poly v r' => exact absurd he (fun h => h)
  | poly v r => cases s' <;> exact absurd he (fun h => h)

namespace Spec
/-- Of two shapes in the space on different bodies, not both unmoving, one is a ball and the other a ball or a rod. -/
def AllEasy (sc : Scene K) (fig : Nat → Figure K) (r : Roster) : Prop :=
  ∀ i j, r i ≠ none → r j ≠ none → (r i = some true ∨ r j = some true) → (sc.figs i).body ≠ (sc.figs j).body → Figure.Easy (fig i) (fig j)

/-- The searches for closest points of a step settle, and the shapes are not far away compared with the infinity of the code. -/
def Searched (M : Mth K) (sc : Scene K) (fig : Nat → Figure K) (inp : Tick K) (w : World K) : Prop :=
  ∃ B, 8 * (B * B) < sc.par.inf ∧ 2 * B < sc.par.inf ∧ ∀ p ∈ w.calls M sc inp, ∀ a b, a = (w.begun M sc inp).shapes p.1 → b = (w.begun M sc inp).shapes p.2 →
    Overlap a.bb b.bb → Within B a.cls ∧ Within B b.cls ∧
      (¬ Figure.Easy (fig p.1) (fig p.2) → PairSearched M sc.par.inf sc.tiny a b (if (w.begun M sc inp).tree.pairs.contains p then (w.begun M sc inp).ids p.1 p.2 else 0))
end Spec

theorem legal_append (sc : Scene K) (ops ops' : List (WorldOp K)) : ∀ r, WLegal sc r (ops ++ ops') ↔ WLegal sc r ops ∧ WLegal sc (rosterAfter r ops) ops' := by
  induction ops with
  | nil => intro r; simp [WLegal, rosterAfter]
  | cons op ops ih => intro r; simp only [List.cons_append, WLegal, ih, rosterAfter, List.foldl_cons, and_assoc]

theorem run_append (M : Mth K) (sc : Scene K) (ops ops' : List (WorldOp K)) : ∀ w : World K, w.run M sc (ops ++ ops') = (w.run M sc ops).bind fun w => w.run M sc ops' := by
  induction ops with
  | nil => intro w; rfl
  | cons op ops ih =>
    intro w
    simp only [List.cons_append, World.run]
    cases w.run1 M sc op with
    | none => rfl
    | some w => exact ih w

/-- **C113.** After any history that keeps the rules, in a space of balls, rods and convex polygons, a step hands to the solver, each once, exactly the
wanted ones among the pairs of shapes that collide where their bodies are after the step. The searches for closest points are assumed to settle. -/
theorem C113_found_partial {M : Mth K} (hM : M.Lawful) {sc : Scene K} {fig : Nat → Figure K} (hm : Made M sc fig) (hti : 0 < sc.tiny) (bodies : Nat → Body K)
    (shapes : Nat → CShape K) (hb : ∀ k, Rigid (bodies k).tr) (hs : ∀ i, (shapes i).bb.L ≤ (shapes i).bb.R ∧ (shapes i).bb.B ≤ (shapes i).bb.T)
    (ops : List (WorldOp K)) (inp : Tick K) (h0 : inp.dt ≠ 0) (hl : WLegal sc (fun _ => none) (ops ++ [.step inp]))
    (hset : ∀ w, (World.init bodies shapes).run M sc ops = some w → Searched M sc fig inp w) :
    ∃ w w', (World.init bodies shapes).run M sc ops = some w ∧ (World.init bodies shapes).run M sc (ops ++ [.step inp]) = some w' ∧
      StepExact sc fig inp (rosterAfter (fun _ => none) ops) w w' := by
  obtain ⟨hl1, hl2⟩ := (legal_append sc _ _ _).1 hl
  obtain ⟨w, hw, hu⟩ := run_upright hM hm ops _ _ (init_upright sc bodies shapes hb hs) hl1
  refine ⟨w, w.step M sc inp, hw, by rw [run_append, hw]; rfl, ?_⟩
  obtain ⟨hup, hcur⟩ := begun_upright hM hm hu inp hl2.1
  obtain ⟨B, hB1, hB2, hS⟩ := hset w hw
  refine step_exact hM hm hu inp hl2.1 h0 fun p hp h1 h2 h3 h4 h5 => ?_
  obtain ⟨w1, w2, h6⟩ := hS p hp _ _ rfl rfl h5
  rw [hcur _ h1, hcur _ h2, (hm _).2, (hm _).2] at *
  exact C102_pair_partial hM sc.par.inf sc.tiny B hti hB1 hB2 (hup.rigid _) (hup.rigid _) (hm _).1 (hm _).1 _ _ w1 w2 _ h6

/-- **C113.** In a space in which only balls move among balls and rods nothing need be assumed. -/
theorem C113_balls {M : Mth K} (hM : M.Lawful) {sc : Scene K} {fig : Nat → Figure K} (hm : Made M sc fig) (bodies : Nat → Body K) (shapes : Nat → CShape K)
    (hb : ∀ k, Rigid (bodies k).tr) (hs : ∀ i, (shapes i).bb.L ≤ (shapes i).bb.R ∧ (shapes i).bb.B ≤ (shapes i).bb.T) (ops : List (WorldOp K)) (inp : Tick K)
    (h0 : inp.dt ≠ 0) (hl : WLegal sc (fun _ => none) (ops ++ [.step inp])) (he : AllEasy sc fig (rosterAfter (fun _ => none) ops)) :
    ∃ w w', (World.init bodies shapes).run M sc ops = some w ∧ (World.init bodies shapes).run M sc (ops ++ [.step inp]) = some w' ∧
      StepExact sc fig inp (rosterAfter (fun _ => none) ops) w w' := by
  obtain ⟨hl1, hl2⟩ := (legal_append sc _ _ _).1 hl
  obtain ⟨w, hw, hu⟩ := run_upright hM hm ops _ _ (init_upright sc bodies shapes hb hs) hl1
  refine ⟨w, w.step M sc inp, hw, by rw [run_append, hw]; rfl, ?_⟩
  obtain ⟨hup, hcur⟩ := begun_upright hM hm hu inp hl2.1
  refine step_exact hM hm hu inp hl2.1 h0 fun p hp h1 h2 h3 h4 h5 => ?_
  rw [hcur _ h1, hcur _ h2, (hm _).2, (hm _).2]
  exact easy_pair hM sc.par.inf sc.tiny (hup.rigid _) (hup.rigid _) (hm _).1 (hm _).1 (he _ _ h1 h2 h3 h4) _ _ _

/-! ## Examples -/

/-- Two balls move above a rod that lies still. -/
noncomputable def exAboveFig (i : Nat) : Figure ℝ := if i = 2 then .rod ⟨-9, -1⟩ ⟨9, -1⟩ (1/4) else .ball 1 ⟨0, 0⟩
noncomputable def exAbove : Scene ℝ :=
  ⟨fun i => ⟨(exAboveFig i).made realMth, i % 3, ⟨0#64, 1#64, 1#64⟩, ⟨1, 1/2, ⟨0, 0⟩⟩, false, BitVec.ofNat 64 i⟩, ⟨100000, 1/10, 1/2, 1, ⟨0, -1⟩, 2⟩, 1/1000, 3,
    fun _ _ => false⟩
noncomputable def exSpotAt (x v : ℝ) : Body ℝ := { Body.blank with m := 1, mInv := 1, i := 1, iInv := 1, p := ⟨x, 0⟩, v := ⟨v, 0⟩, tr := ⟨1, 0, 0, 1, x, 0⟩ }
noncomputable def exAboveBodies (k : Nat) : Body ℝ := if k = 0 then exSpotAt 0 1 else if k = 1 then exSpotAt (5/2) 0 else { Body.blank with tr := ⟨1, 0, 0, 1, 0, 0⟩ }
noncomputable def exAboveDo : List (WorldOp ℝ) :=
  [.addStat 2, .addDyn 0, .addDyn 1, .step ⟨1/2, [0, 1], [0, 1], fun _ _ => true, fun _ _ => true⟩, .removeDyn 0, .setBody 0 (exSpotAt 7 1), .addDyn 0]

/-- The hypotheses of `C113_balls`. -/
theorem exAbove_hyps : Made realMth exAbove exAboveFig ∧ (∀ k, Rigid (exAboveBodies k).tr) ∧
    WLegal exAbove (fun _ => none) (exAboveDo ++ [.step ⟨1/2, [0, 1], [1, 0], fun _ _ => true, fun _ _ => true⟩]) ∧
    AllEasy exAbove exAboveFig (rosterAfter (fun _ => none) exAboveDo) := by
  refine ⟨fun i => ⟨?_, rfl⟩, fun k => ?_, ?_, ?_⟩
  · unfold exAboveFig; split
    · exact ⟨by norm_num, by norm_num [V2.mk.injEq]⟩
    · exact zero_le_one (α := ℝ)
  · unfold exAboveBodies; split
    · norm_num [Rigid, exSpotAt]
    · split <;> norm_num [Rigid, exSpotAt]
  · have hst : ∀ r : Roster, r = (fun i => if i = 0 ∨ i = 1 then some true else if i = 2 then some false else none) → ∀ dt : ℝ, ∀ o : List Nat, (o = [0, 1] ∨ o = [1, 0]) →
        WOk exAbove r (.step ⟨dt, [0, 1], o, fun _ _ => true, fun _ _ => true⟩) := by
      rintro r rfl dt o ho
      refine ⟨by rcases ho with rfl | rfl <;> simp, fun i => ?_, fun j hj => ?_⟩
      · have : i ∈ o ↔ i = 0 ∨ i = 1 := by rcases ho with rfl | rfl <;> simp [or_comm]
        show i ∈ o ↔ _
        rw [this]; dsimp only
        by_cases h : i = 0 ∨ i = 1
        · simp [h]
        · simp only [h, if_false, false_iff]; split <;> simp
      · dsimp only at hj
        split at hj
        · simp at hj
        · split at hj
          · rename_i h; subst h; simp [exAbove]
          · cases hj
    have roster : ∀ r : Roster, (∀ i, r i = if i = 0 ∨ i = 1 then some true else if i = 2 then some false else none) →
        r = (fun i => if i = 0 ∨ i = 1 then some true else if i = 2 then some false else none) := fun r h => funext h
    refine ⟨rfl, by simp [WOk, rosterStep, Roster.set], by simp [WOk, rosterStep, Roster.set], hst _ (roster _ fun i => ?_) _ _ (.inl rfl), by simp [WOk, rosterStep, Roster.set],
      ⟨?_, fun j hj => ?_⟩, by simp [WOk, rosterStep, Roster.set], hst _ (roster _ fun i => ?_) _ _ (.inr rfl), trivial⟩
    · simp only [rosterStep, Roster.set]
      by_cases h0 : i = 0
      · simp [h0]
      · by_cases h1 : i = 1 <;> simp [h0, h1]
    · norm_num [Rigid, exSpotAt]
    · have : j = 2 := by
        simp only [rosterStep, Roster.set] at hj
        by_contra h
        by_cases h0 : j = 0
        · simp [h0] at hj
        · by_cases h1 : j = 1 <;> simp [h0, h1, h] at hj
      subst this; simp [exAbove]
    · simp only [rosterStep, Roster.set]
      by_cases h0 : i = 0
      · simp [h0]
      · by_cases h1 : i = 1 <;> simp [h0, h1]
  · have hr : ∀ i, rosterAfter (fun _ => none) exAboveDo i = if i = 0 ∨ i = 1 then some true else if i = 2 then some false else none := by
      intro i
      simp only [rosterAfter, exAboveDo, List.foldl_cons, List.foldl_nil, rosterStep, Roster.set]
      by_cases h0 : i = 0
      · simp [h0]
      · by_cases h1 : i = 1 <;> simp [h0, h1]
    intro i j hi hj hd hb
    have two : ∀ i, rosterAfter (fun _ => none) exAboveDo i = some true → i ≠ 2 := by
      rintro i h rfl; rw [hr] at h; simp at h
    unfold exAboveFig
    rcases hd with hd | hd
    · rw [if_neg (two i hd)]; split <;> exact trivial
    · rw [if_neg (two j hd)]; split <;> exact trivial

/-- Two rods on bodies at rest. -/
noncomputable def exRodsFig (i : Nat) : Figure ℝ := if i = 0 then .rod ⟨-1, 0⟩ ⟨1, 0⟩ 1 else .rod ⟨0, 1⟩ ⟨2, 3⟩ 1
noncomputable def exRods : Scene ℝ :=
  ⟨fun i => ⟨(exRodsFig i).made realMth, i, ⟨0#64, 1#64, 1#64⟩, ⟨1, 1/2, ⟨0, 0⟩⟩, false, if i = 0 then 2 else 1⟩, ⟨1000, 1/10, 1/2, 1, ⟨0, 0⟩, 2⟩, 1/1000, 3,
    fun _ _ => false⟩
noncomputable def exRest : Body ℝ := { Body.blank with m := 1, mInv := 1, i := 1, iInv := 1, tr := ⟨1, 0, 0, 1, 0, 0⟩ }
noncomputable def exRodsTick : Tick ℝ := ⟨1, [0, 1], [0, 1], fun _ _ => true, fun _ _ => true⟩

theorem exRods_settle : SearchSettled realMth 1000 (1/1000) exFlat exSlant 0 ∧ SearchSettled realMth 1000 (1/1000) exSlant exFlat 0 := by
  have hs : realMth.sqrt (2 * 2) = 2 := Real.sqrt_mul_self (by norm_num)
  norm_num at hs
  constructor
  · refine ⟨MPoint.closestPoints realMth ⟨⟨-1, 0⟩, ⟨0, 1⟩, ⟨1, 1⟩, 0⟩ ⟨⟨1, 0⟩, ⟨0, 1⟩, ⟨-1, 1⟩, 256⟩, .gjkDone, ?_, ?_⟩
    · simp only [exFlat, exSlant, cachedShape, Figure.made, Cls.cache, Segment.cache, Segment.new, Transform.apply, gjk, gjkStart, ne_eq, not_true_eq_false, if_false,
        BB.center, V2.lerp, V2.add, V2.scale, V2.sub, V2.perp, V2.neg, Ctx.support, Cls.support, MPoint.new, V2.dot]
      norm_num
      iterate 2
        rw [gjkRecurse]
        simp only [pointGreater, closestT, lerpT, clamp, checkAxis, V2.zero, V2.lengthSq, V2.dot, V2.sub, V2.add, V2.perp, V2.neg, closestDist,
          Ctx.support, Cls.support, MPoint.new, V2.scale]
        norm_num
    · have e : MPoint.closestPoints realMth ⟨⟨-1, 0⟩, ⟨0, 1⟩, ⟨1, 1⟩, 0⟩ ⟨⟨1, 0⟩, ⟨0, 1⟩, ⟨-1, 1⟩, 256⟩ = ⟨⟨0, 0⟩, ⟨0, 1⟩, ⟨0, 1⟩, 1, 256⟩ := by
        simp only [MPoint.closestPoints, closestT, lerpT, clamp, V2.unit, V2.mag, V2.lengthSq, V2.dot, V2.sub, V2.add, V2.rperp, V2.scale]
        norm_num
        rw [hs]
        norm_num
      rw [e]
      refine ⟨.inl ⟨rfl, by norm_num⟩, Or.inl ⟨Or.inl ?_, Or.inl ?_⟩⟩ <;>
        norm_num [NotEndOn, exFlat, exSlant, cachedShape, Figure.made, Cls.cache, Segment.cache, Segment.new, Transform.apply, V2.cross, V2.sub]
  · refine ⟨MPoint.closestPoints realMth ⟨⟨0, 1⟩, ⟨-1, 0⟩, ⟨-1, -1⟩, 0⟩ ⟨⟨0, 1⟩, ⟨1, 0⟩, ⟨1, -1⟩, 1⟩, .gjkDone, ?_, ?_⟩
    · simp only [exFlat, exSlant, cachedShape, Figure.made, Cls.cache, Segment.cache, Segment.new, Transform.apply, gjk, gjkStart, ne_eq, not_true_eq_false, if_false,
        BB.center, V2.lerp, V2.add, V2.scale, V2.sub, V2.perp, V2.neg, Ctx.support, Cls.support, MPoint.new, V2.dot]
      norm_num
      iterate 2
        rw [gjkRecurse]
        simp only [pointGreater, closestT, lerpT, clamp, checkAxis, V2.zero, V2.lengthSq, V2.dot, V2.sub, V2.add, V2.perp, V2.neg, closestDist,
          Ctx.support, Cls.support, MPoint.new, V2.scale]
        norm_num
    · have e : MPoint.closestPoints realMth ⟨⟨0, 1⟩, ⟨-1, 0⟩, ⟨-1, -1⟩, 0⟩ ⟨⟨0, 1⟩, ⟨1, 0⟩, ⟨1, -1⟩, 1⟩ = ⟨⟨0, 1⟩, ⟨0, 0⟩, ⟨0, -1⟩, 1, 1⟩ := by
        simp only [MPoint.closestPoints, closestT, lerpT, clamp, V2.unit, V2.mag, V2.lengthSq, V2.dot, V2.sub, V2.add, V2.rperp, V2.scale]
        norm_num
        rw [hs]
        norm_num
      rw [e]
      refine ⟨.inl ⟨rfl, by norm_num⟩, Or.inl ⟨Or.inl ?_, Or.inl ?_⟩⟩ <;>
        norm_num [NotEndOn, exFlat, exSlant, cachedShape, Figure.made, Cls.cache, Segment.cache, Segment.new, Transform.apply, V2.cross, V2.sub]

/-- The hypotheses of `C113_found_partial`. -/
example : Made realMth exRods exRodsFig ∧ Rigid exRest.tr ∧ WLegal exRods (fun _ => none) ([.addDyn 0, .addDyn 1] ++ [.step exRodsTick]) ∧
    ∀ w, (World.init (fun _ => exRest) (fun _ => exFlat)).run realMth exRods [.addDyn 0, .addDyn 1] = some w → Searched realMth exRods exRodsFig exRodsTick w := by
  have hmade : Made realMth exRods exRodsFig := by
    refine fun i => ⟨?_, rfl⟩
    unfold exRodsFig; split
    · exact ⟨by norm_num, by norm_num [V2.mk.injEq]⟩
    · exact ⟨by norm_num, by simp⟩
  have hrig : Rigid exRest.tr := by norm_num [Rigid, exRest]
  have hleg : WLegal exRods (fun _ => none) ([.addDyn 0, .addDyn 1] ++ [.step exRodsTick]) := by
    refine ⟨rfl, by simp [WOk, rosterStep, Roster.set], ⟨by simp [exRodsTick], fun i => ?_, fun j hj => ?_⟩, trivial⟩
    · simp only [rosterStep, Roster.set, exRodsTick, List.mem_cons, List.not_mem_nil, or_false]
      by_cases h0 : i = 0
      · simp [h0]
      · by_cases h1 : i = 1 <;> simp [h0, h1]
    · simp only [rosterStep, Roster.set] at hj
      split at hj
      · simp at hj
      · split at hj
        · simp at hj
        · cases hj
  refine ⟨hmade, hrig, hleg, fun w hw => ?_⟩
  have hflat : exFlat.bb.L ≤ exFlat.bb.R ∧ exFlat.bb.B ≤ exFlat.bb.T := figure_box_proper realMth 1000 _ (hmade 0).1
  obtain ⟨hl1, hl2⟩ := (legal_append exRods _ _ _).1 hleg
  obtain ⟨w', hw', hu⟩ := run_upright realMth_lawful hmade _ _ _ (init_upright exRods (fun _ => exRest) (fun _ => exFlat) (fun _ => hrig) (fun _ => hflat)) hl1
  rw [hw] at hw'
  cases hw'
  have hbod : w.bodies = (fun _ => exRest) ∧ ∀ x y, w.ids x y = 0 := by
    simp only [World.run] at hw
    cases h1 : (World.init (fun _ => exRest) (fun _ => exFlat)).run1 realMth exRods (.addDyn 0) with
    | none => rw [h1] at hw; cases hw
    | some w1 =>
      rw [h1] at hw
      dsimp only at hw
      cases h2 : w1.run1 realMth exRods (.addDyn 1) with
      | none => rw [h2] at hw; cases hw
      | some w2 =>
        rw [h2] at hw
        dsimp only at hw
        simp only [World.run1, Option.map_eq_some_iff] at h1 h2
        obtain ⟨t1, -, rfl⟩ := h1
        obtain ⟨t2, -, rfl⟩ := h2
        cases hw
        refine ⟨rfl, fun x y => ?_⟩
        simp [keptIds, World.recache, World.init]
  have hids : ∀ x y, (w.begun realMth exRods exRodsTick).ids x y = 0 := by
    intro x y
    simp only [World.begun, keptIds]
    split
    · exact hbod.2 x y
    · rfl
  obtain ⟨hup, hcur⟩ := begun_upright realMth_lawful hmade hu exRodsTick hl2.1
  have htr : ∀ k, ((w.begun realMth exRods exRodsTick).bodies k).tr = ⟨1, 0, 0, 1, 0, 0⟩ := by
    intro k
    simp only [World.begun, SolverState.positions, hbod.1]
    split
    · norm_num [exRest, exRodsTick, Body.updatePosition, Body.setTransform, Body.mkTransform, Transform.transpose, realMth, Body.blank, V2.add, V2.scale, V2.zero, V2.rotate, V2.sub, V2.neg]
    · rfl
  obtain ⟨m, hr, hm1, hm2⟩ := hu.index
  have hros : ∀ i, (m i).isSome → i = 0 ∨ i = 1 := by
    intro i hi
    by_contra h
    rw [not_or] at h
    have := hm1 i
    simp only [rosterAfter, List.foldl_cons, List.foldl_nil, rosterStep, Roster.set, h.1, h.2, if_false, Option.map_eq_none_iff] at this
    rw [this] at hi; cases hi
  have hpairs : ∀ p ∈ w.calls realMth exRods exRodsTick, p = (0, 1) ∨ p = (1, 0) := by
    intro p hp
    have hleg' : Legal m (.reindexQuery exRodsTick.order (fun i => ((w.begun realMth exRods exRodsTick).shapes i).bb)
        fun i => ((w.begun realMth exRods exRodsTick).bodies (exRods.figs i).body).v) := by
      refine ⟨hup.proper, hl2.1.1, fun i => ?_⟩
      rw [hl2.1.2.1, ← hm1]
      cases m i with
      | none => simp
      | some x => obtain ⟨b, bb⟩ := x; simp
    obtain ⟨n1, n2, n3, -⟩ := (rel_calls hr hleg').2.1 p.1 p.2 hp
    obtain ⟨x, y⟩ := p
    rcases hros _ n2 with h1 | h1 <;> rcases hros _ n3 with h2 | h2 <;> simp_all
  have h0 : (w.begun realMth exRods exRodsTick).shapes 0 = exFlat := by
    rw [hcur 0 (by simp [rosterAfter, rosterStep, Roster.set]), htr]; rfl
  have h1 : (w.begun realMth exRods exRodsTick).shapes 1 = exSlant := by
    rw [hcur 1 (by simp [rosterAfter, rosterStep, Roster.set]), htr]; rfl
  have w1 : Within 3 exFlat.cls := by
    intro v hv
    simp only [exFlat, cachedShape, Figure.made, Cls.cache, Segment.cache, Segment.new, Transform.apply, corners, List.mem_cons, List.not_mem_nil, or_false] at hv
    rcases hv with rfl | rfl <;> norm_num
  have w2 : Within 3 exSlant.cls := by
    intro v hv
    simp only [exSlant, cachedShape, Figure.made, Cls.cache, Segment.cache, Segment.new, Transform.apply, corners, List.mem_cons, List.not_mem_nil, or_false] at hv
    rcases hv with rfl | rfl <;> norm_num
  refine ⟨3, by norm_num [exRods], by norm_num [exRods], fun p hp a b ha hb _ => ?_⟩
  have hz : (if (w.begun realMth exRods exRodsTick).tree.pairs.contains p = true then (w.begun realMth exRods exRodsTick).ids p.1 p.2 else 0) = 0 := by
    rw [hids]; split <;> rfl
  rw [hz]
  rcases hpairs p hp with rfl | rfl
  · rw [h0] at ha; rw [h1] at hb
    subst ha hb
    refine ⟨w1, w2, fun _ => ?_⟩
    unfold PairSearched
    rw [if_neg (by simp [exFlat, exSlant, cachedShape, Figure.made, Cls.cache, Cls.order])]
    exact exRods_settle.1
  · rw [h1] at ha; rw [h0] at hb
    subst ha hb
    refine ⟨w2, w1, fun _ => ?_⟩
    unfold PairSearched
    rw [if_neg (by simp [exFlat, exSlant, cachedShape, Figure.made, Cls.cache, Cls.order])]
    exact exRods_settle.2

end Cm
