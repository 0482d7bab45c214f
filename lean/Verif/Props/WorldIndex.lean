import Verif.Props.World
import Verif.Proofs.Nudge
import Verif.Props.Narrow
/-! # The broad phase and the solver in the whole simulation, in any arithmetic that rounds -/
set_option linter.unusedSectionVars false
set_option linter.unusedSimpArgs false
set_option linter.unusedVariables false

namespace Cm
open Spec BBTree
variable {K : Type} [Zero K] [One K] [Add K] [Sub K] [Mul K] [Div K] [Neg K] [NatCast K] [LinearOrder K] [Spec.Rounded K]


/-! ## One arbiter per pair -/

namespace Spec
/-- Two pairs of the same two shapes. -/
def SameTwo (p q : Nat × Nat) : Prop := p = q ∨ p = (q.2, q.1)
end Spec

theorem SameTwo.symm {p q : Nat × Nat} (h : SameTwo p q) : SameTwo q p := by
  rcases h with rfl | rfl
  · exact .inl rfl
  · exact .inr rfl

theorem is_iff (h : Held K) (a b : Nat) : h.is a b = true ↔ SameTwo (h.a, h.b) (a, b) := by
  simp only [Held.is, SameTwo, Bool.or_eq_true, Bool.and_eq_true, beq_iff_eq, Prod.mk.injEq]
  constructor
  · rintro (⟨rfl, rfl⟩ | ⟨rfl, rfl⟩)
    · exact .inl ⟨rfl, rfl⟩
    · exact .inr ⟨rfl, rfl⟩
  · rintro (⟨rfl, rfl⟩ | ⟨rfl, rfl⟩)
    · exact .inl ⟨rfl, rfl⟩
    · exact .inr ⟨rfl, rfl⟩

theorem is_swap (h : Held K) (a b : Nat) : h.is a b = h.is b a := by simp only [Held.is]; exact Bool.or_comm _ _

theorem find_put_other (h : Held K) (a b : Nat) (hn : h.is a b = false) (c : List (Held K)) :
    (putHeld h c).find? (fun o => o.is a b) = c.find? (fun o => o.is a b) := by
  have key : ∀ o : Held K, o.is h.a h.b = true → o.is a b = false := by
    intro o ho
    rw [Bool.eq_false_iff]
    intro h2
    rw [is_iff] at ho h2
    have : h.is a b = true := by
      rw [is_iff]
      simp only [SameTwo, Prod.mk.injEq] at ho h2 ⊢
      omega
    rw [hn] at this; cases this
  unfold putHeld
  split
  · rename_i hx
    clear hx
    induction c with
    | nil => rfl
    | cons o c ih =>
      rw [List.map_cons, List.find?_cons, List.find?_cons]
      by_cases ho : o.is h.a h.b = true
      · rw [if_pos ho, hn, key o ho]; exact ih
      · rw [if_neg ho, ih]
  · rw [List.find?_cons, hn]

theorem find_put_same (h : Held K) (a b : Nat) (hs : h.is a b = true) (c : List (Held K)) :
    (putHeld h c).find? (fun o => o.is a b) = some h := by
  have key : ∀ o : Held K, o.is h.a h.b = o.is a b := by
    intro o
    rw [Bool.eq_iff_iff, is_iff, is_iff]
    rw [is_iff] at hs
    simp only [SameTwo, Prod.mk.injEq] at hs ⊢
    omega
  simp only [putHeld, key]
  split
  · rename_i hany
    induction c with
    | nil => simp at hany
    | cons o c ih =>
      rw [List.map_cons, List.find?_cons]
      by_cases ho : o.is a b = true
      · rw [if_pos ho, hs]
      · rw [if_neg ho]
        rw [Bool.not_eq_true] at ho
        rw [ho]
        simp only [List.any_cons, ho, Bool.false_or] at hany
        exact ih hany
  · rw [List.find?_cons, hs]

/-! ## One call -/

/-- What `Collide` is asked and answers for a pair reported by the broad phase. -/
def World.answer (M : Mth K) (sc : Scene K) (w : World K) (p : Nat × Nat) : Option (Info K) :=
  if queryReject (fun x => (sc.figs x).body) (fun x => (sc.figs x).filter) (fun x => (w.shapes x).bb) w.barred p.1 p.2 then none
  else collide M sc.par.inf sc.tiny (w.shapes p.1) (w.shapes p.2) (if w.tree.pairs.contains p then w.ids p.1 p.2 else 0)

/-- The collision found for a pair. -/
def World.hit (M : Mth K) (sc : Scene K) (w : World K) (p : Nat × Nat) : Option (Info K) := (w.answer M sc p).filter fun info => !info.contacts.isEmpty

theorem meet_eq (M : Mth K) (sc : Scene K) (inp : Tick K) (w : World K) (p : Nat × Nat) : ∃ ids' : Nat → Nat → Nat,
    (∀ x y, (x, y) ≠ p → ids' x y = w.ids x y) ∧
    w.meet M sc inp p = match w.hit M sc p with
      | none => { w with ids := ids' }
      | some info => { w with ids := ids' }.collided sc inp (info.pair p) info := by
  unfold World.meet World.hit World.answer
  split
  · exact ⟨w.ids, fun _ _ _ => rfl, rfl⟩
  · dsimp only
    generalize collide M sc.par.inf sc.tiny (w.shapes p.1) (w.shapes p.2) (if w.tree.pairs.contains p = true then w.ids p.1 p.2 else 0) = r
    cases r with
    | none => exact ⟨w.ids, fun _ _ _ => rfl, rfl⟩
    | some info =>
      refine ⟨fun x y => if (w.tree.pairs.contains p && (x == p.1 && y == p.2)) = true then info.id else w.ids x y, ?_, ?_⟩
      · intro x y hxy
        dsimp only
        rw [if_neg]
        simp only [Bool.and_eq_true, beq_iff_eq, not_and]
        rintro - rfl rfl; exact hxy rfl
      · dsimp only
        cases he : info.contacts.isEmpty <;> simp [Option.filter, he]

theorem info_pair (info : Info K) (p : Nat × Nat) : SameTwo (info.pair p) p := by
  unfold Info.pair; split
  · exact .inr rfl
  · exact .inl rfl

/-- Two worlds that do not differ in what a pair depends on. -/
structure AlikeFor (w w' : World K) (p : Nat × Nat) : Prop where
  bodies : w'.bodies = w.bodies
  shapes : w'.shapes = w.shapes
  barred : w'.barred = w.barred
  tree : w'.tree = w.tree
  ids : w'.ids p.1 p.2 = w.ids p.1 p.2
  held : ∀ a b, SameTwo (a, b) p → w'.cache.find? (fun o => o.is a b) = w.cache.find? (fun o => o.is a b)

theorem AlikeFor.trans {w w' w'' : World K} {p : Nat × Nat} (h : AlikeFor w w' p) (h' : AlikeFor w' w'' p) : AlikeFor w w'' p :=
  ⟨h'.bodies.trans h.bodies, h'.shapes.trans h.shapes, h'.barred.trans h.barred, h'.tree.trans h.tree, h'.ids.trans h.ids,
    fun a b hab => (h'.held a b hab).trans (h.held a b hab)⟩

theorem AlikeFor.answer {w w' : World K} {p : Nat × Nat} (h : AlikeFor w w' p) (M : Mth K) (sc : Scene K) : w'.hit M sc p = w.hit M sc p := by
  unfold World.hit World.answer
  rw [h.shapes, h.barred, h.tree, h.ids]

theorem AlikeFor.updated {w w' : World K} {p : Nat × Nat} (h : AlikeFor w w' p) (sc : Scene K) (inp : Tick K) (info : Info K) :
    w'.updated sc inp (info.pair p) info = w.updated sc inp (info.pair p) info := by
  have := h.held (info.pair p).1 (info.pair p).2 (info_pair info p)
  unfold World.updated heldArb
  rw [this, h.bodies]

/-- A call of the narrow phase concerns no other pair. -/
theorem meet_other (M : Mth K) (sc : Scene K) (inp : Tick K) (w : World K) (p q : Nat × Nat) (hpq : ¬ SameTwo p q) : AlikeFor w (w.meet M sc inp p) q := by
  obtain ⟨ids', hids, e⟩ := meet_eq M sc inp w p
  have hne : (q.1, q.2) ≠ p := fun h => hpq (.inl h.symm)
  rw [e]
  cases w.hit M sc p with
  | none => exact ⟨rfl, rfl, rfl, rfl, hids _ _ hne, fun _ _ _ => rfl⟩
  | some info =>
    have hf : ∀ (arb : Arbiter K) a b, SameTwo (a, b) q → (⟨(info.pair p).1, (info.pair p).2, w.stamp, arb⟩ : Held K).is a b = false := by
      intro arb a b hab
      rw [Bool.eq_false_iff]
      intro h
      rw [is_iff] at h
      apply hpq
      have := info_pair info p
      obtain ⟨p1, p2⟩ := p
      obtain ⟨q1, q2⟩ := q
      generalize info.pair (p1, p2) = r at h this
      obtain ⟨r1, r2⟩ := r
      simp only [SameTwo, Prod.mk.injEq] at h this hab ⊢
      omega
    dsimp only [World.collided]
    split
    · exact ⟨rfl, rfl, rfl, rfl, hids _ _ hne, fun a b hab => find_put_other _ _ _ (hf _ a b hab) _⟩
    · exact ⟨rfl, rfl, rfl, rfl, hids _ _ hne, fun a b hab => find_put_other _ _ _ (hf _ a b hab) _⟩

/-- The pair passed to the solver, if any. -/
def World.solved (M : Mth K) (sc : Scene K) (inp : Tick K) (w : World K) (p : Nat × Nat) : Option (Nat × Nat) :=
  match w.hit M sc p with
  | none => none
  | some info => if w.passes sc inp (info.pair p) (w.updated sc inp (info.pair p) info) then some (info.pair p) else none

theorem AlikeFor.solved {w w' : World K} {p : Nat × Nat} (h : AlikeFor w w' p) (M : Mth K) (sc : Scene K) (inp : Tick K) :
    w'.solved M sc inp p = w.solved M sc inp p := by
  unfold World.solved
  rw [h.answer]
  cases w.hit M sc p with
  | none => rfl
  | some info =>
    dsimp only
    rw [h.updated]
    simp only [World.passes, h.bodies]

theorem meet_active (M : Mth K) (sc : Scene K) (inp : Tick K) (w : World K) (p : Nat × Nat) :
    (w.meet M sc inp p).active = w.active ++ (w.solved M sc inp p).toList := by
  obtain ⟨ids', -, e⟩ := meet_eq M sc inp w p
  rw [e]
  unfold World.solved
  cases w.hit M sc p with
  | none => simp
  | some info =>
    have h1 : ({ w with ids := ids' } : World K).updated sc inp (info.pair p) info = w.updated sc inp (info.pair p) info := rfl
    have h2 : ∀ arb, ({ w with ids := ids' } : World K).passes sc inp (info.pair p) arb ↔ w.passes sc inp (info.pair p) arb := fun _ => Iff.rfl
    dsimp only [World.collided]
    rw [h1]
    by_cases hp : w.passes sc inp (info.pair p) (w.updated sc inp (info.pair p) info)
    · rw [if_pos ((h2 _).2 hp), if_pos hp]; rfl
    · rw [if_neg (fun h => hp ((h2 _).1 h)), if_neg hp]; simp

/-- All calls of a step: each acts as if it were the only one. -/
theorem meets_active (M : Mth K) (sc : Scene K) (inp : Tick K) (calls : List (Nat × Nat)) : ∀ w : World K, calls.Pairwise (fun p q => ¬ SameTwo p q) →
    (calls.foldl (World.meet M sc inp) w).active = w.active ++ calls.filterMap (w.solved M sc inp) ∧
    ∀ q, (∀ p ∈ calls, ¬ SameTwo p q) → AlikeFor w (calls.foldl (World.meet M sc inp) w) q := by
  induction calls with
  | nil => intro w _; exact ⟨by simp, fun q _ => ⟨rfl, rfl, rfl, rfl, rfl, fun _ _ _ => rfl⟩⟩
  | cons p calls ih =>
    intro w hp
    obtain ⟨h1, h2⟩ := List.pairwise_cons.1 hp
    obtain ⟨e1, e2⟩ := ih (w.meet M sc inp p) h2
    simp only [List.foldl_cons]
    constructor
    · rw [e1, meet_active, List.append_assoc]
      congr 1
      have : calls.filterMap ((w.meet M sc inp p).solved M sc inp) = calls.filterMap (w.solved M sc inp) :=
        List.filterMap_congr fun q hq => (meet_other M sc inp w p q (h1 q hq)).solved M sc inp
      rw [this, List.filterMap_cons]
      cases w.solved M sc inp p <;> rfl
    · intro q hq
      exact (meet_other M sc inp w p q (hq p List.mem_cons_self)).trans (e2 q fun p' hp' => hq p' (List.mem_cons_of_mem _ hp'))

/-! ## The solver moves nothing -/

/-- What the solver leaves of a body. -/
def Spec.SamePlace (a b : Body K) : Prop := (b.m = a.m ∧ b.idle = a.idle) ∧ b.p = a.p ∧ b.angle = a.angle ∧ b.tr = a.tr

theorem SamePlace.trans {a b c : Body K} (h : SamePlace a b) (h' : SamePlace b c) : SamePlace a c :=
  ⟨⟨h'.1.1.trans h.1.1, h'.1.2.trans h.1.2⟩, h'.2.1.trans h.2.1, h'.2.2.1.trans h.2.2.1, h'.2.2.2.trans h.2.2.2⟩

theorem SamePlace.of_same {a b : Body K} (h : SameBut a b) : SamePlace a b := by
  obtain ⟨h1, -, -, -, h5, h6, h7, -, h9, -⟩ := h.masses
  exact ⟨⟨h1, h9⟩, h5, h6, h7⟩

theorem linkLoop_place {α : Type} (f : α → Body K → Body K → Body K × Body K × α) (hf : ∀ x a b, Nudge a b (f x a b).1 (f x a b).2.1) (ls : List (Link α)) :
    ∀ (bs : Nat → Body K) (k : Nat), SameBut (bs k) ((linkLoop f ls bs).1 k) := by
  induction ls with
  | nil => intro bs k; exact SameBut.refl _
  | cons l ls ih =>
    intro bs k
    refine SameBut.trans ?_ (ih _ k)
    unfold putPair
    split
    · rename_i h; rw [h]; exact (hf _ _ _).sameA
    · split
      · rename_i h; rw [h]; exact (hf _ _ _).sameB
      · exact SameBut.refl _

theorem solve_place (M : Mth K) (inf slop cbias damping : K) (g : V2 K) (dyn : List Nat) (prevDT dt : K) (n : Nat) (s : SolverState K) (k : Nat) :
    SamePlace (s.bodies k) ((s.solve M inf slop cbias damping g dyn prevDT dt n).bodies k) := by
  have h1 : SamePlace (s.bodies k) ((s.preStep M inf slop cbias dt).bodies k) :=
    SamePlace.of_same ((linkLoop_place (fun (arb : Arbiter K) a b => (a, b, arb.preStep a b dt slop (1 - M.pow cbias dt))) (fun x a b => Nudge.refl a b) s.arbs s.bodies k).trans
      (linkLoop_place (fun jt a b => jt.preStep M inf a b dt) (fun x a b => jointPreNudge M inf dt x a b) s.joints _ k))
  unfold SolverState.solve
  generalize s.preStep M inf slop cbias dt = s1 at h1 ⊢
  have h2 : SamePlace (s1.bodies k) ((s1.velocities M inf damping g dyn dt).bodies k) := by
    simp only [SolverState.velocities]
    split
    · unfold Body.updateVelocity; split <;> exact ⟨⟨rfl, rfl⟩, rfl, rfl, rfl⟩
    · exact ⟨⟨rfl, rfl⟩, rfl, rfl, rfl⟩
  generalize s1.velocities M inf damping g dyn dt = s2 at h2 ⊢
  have h3 : SamePlace (s2.bodies k) ((s2.cached prevDT dt).bodies k) :=
    SamePlace.of_same ((linkLoop_place (fun arb a b => let t := arb.applyCachedImpulse a b (if prevDT ≠ 0 then dt / prevDT else 0); (t.1, t.2, arb))
        (fun x a b => arbCachedNudge x _ a b) s2.arbs s2.bodies k).trans
      (linkLoop_place (fun jt a b => let t := jt.applyCached a b (if prevDT ≠ 0 then dt / prevDT else 0); (t.1, t.2, jt)) (fun x a b => jointCachedNudge x _ a b) s2.joints _ k))
  generalize s2.cached prevDT dt = s3 at h3 ⊢
  refine SamePlace.trans (SamePlace.trans h1 h2) (SamePlace.trans h3 ?_)
  clear h1 h2 h3
  induction n generalizing s3 with
  | zero => exact ⟨⟨rfl, rfl⟩, rfl, rfl, rfl⟩
  | succ n ih =>
    rw [Function.iterate_succ_apply]
    refine SamePlace.trans ?_ (ih _)
    exact SamePlace.of_same ((linkLoop_place (fun arb a b => arb.applyImpulse a b) arbNudge s3.arbs s3.bodies k).trans
      (linkLoop_place (fun jt a b => jt.applyImpulse M a b dt) (fun x a b => jointNudge M dt x a b) s3.joints _ k))

/-! ## Histories that keep the rules -/

namespace Spec
/-- Which shapes are in the space: `some true` among those that move, `some false` among those that do not. -/
abbrev Roster := Nat → Option Bool

def Roster.set (r : Roster) (i : Nat) (v : Option Bool) : Roster := fun j => if j = i then v else r j

def rosterStep (r : Roster) : WorldOp K → Roster
  | .addDyn i => r.set i (some true)
  | .addStat i => r.set i (some false)
  | .removeDyn i => r.set i none
  | .removeStat i => r.set i none
  | _ => r

/-- What the user may do. A step visits the moving shapes in any order, each once, and moves no body that carries an unmoving shape; such bodies are
not moved by the user either, or their shapes are taken out first. -/
def Ordered (sc : Scene K) (r : Roster) : WorldOp K → Prop
  | .addDyn i => r i = none
  | .addStat i => r i = none
  | .removeDyn i => r i = some true
  | .removeStat i => r i = some false
  | .step t => t.order.Nodup ∧ (∀ i, i ∈ t.order ↔ r i = some true) ∧ ∀ j, r j = some false → (sc.figs j).body ∉ t.dyn
  | .setBody k _ => ∀ j, r j = some false → (sc.figs j).body ≠ k
  | .setJoints _ barred => ∀ x y, barred x y = barred y x
  | .reindex _ => True

def InOrder (sc : Scene K) : Roster → List (WorldOp K) → Prop
  | _, [] => True
  | r, op :: ops => Ordered sc r op ∧ InOrder sc (rosterStep r op) ops

def rosterAfter (r : Roster) (ops : List (WorldOp K)) : Roster := ops.foldl rosterStep r

/-- The boxes of the shapes are not inside out, however the bodies are placed. -/
def Boxed (sc : Scene K) : Prop := ∀ i t, let b := (cachedShape sc.par.inf t (sc.figs i).cls (sc.figs i).hash).bb; b.L ≤ b.R ∧ b.B ≤ b.T
end Spec

/-- What holds after every such history. -/
structure Indexed (sc : Scene K) (r : Roster) (w : World K) : Prop where
  index : ∃ m : Index K, Rel m w.tree ∧ (∀ i, (m i).map (·.1) = r i) ∧ ∀ j k b, m j = some (k, b) → b = (w.shapes j).bb
  still : ∀ j, r j = some false → w.shapes j = cachedShape sc.par.inf (w.bodies (sc.figs j).body).tr (sc.figs j).cls (sc.figs j).hash
  proper : ∀ i, (w.shapes i).bb.L ≤ (w.shapes i).bb.R ∧ (w.shapes i).bb.B ≤ (w.shapes i).bb.T
  barred : ∀ x y, w.barred x y = w.barred y x

theorem positions_place (M : Mth K) (dyn : List Nat) (dt : K) (s : SolverState K) (k : Nat) :
    ((s.positions M dyn dt).bodies k).m = (s.bodies k).m ∧ (k ∉ dyn → (s.positions M dyn dt).bodies k = s.bodies k) := by
  unfold SolverState.positions
  dsimp only
  split
  · rename_i hk
    exact ⟨rfl, fun h => absurd hk h⟩
  · exact ⟨rfl, fun _ => rfl⟩

theorem step_frame (M : Mth K) (sc : Scene K) (inp : Tick K) (w : World K) (h0 : inp.dt ≠ 0) :
    let w' := w.step M sc inp
    w'.tree = (w.begun M sc inp).tree ∧ w'.shapes = (w.begun M sc inp).shapes ∧ w'.barred = w.barred ∧ w'.active = (w.found M sc inp).active ∧
      ∀ k, SamePlace ((w.begun M sc inp).bodies k) (w'.bodies k) := by
  obtain ⟨h1, h2, h3, h4, h5, -⟩ := meets_frame M sc inp (w.calls M sc inp) (w.begun M sc inp) (by intro q hq; exact absurd hq List.not_mem_nil)
  intro w'
  have e : w' = w.step M sc inp := rfl
  unfold World.step at e
  rw [if_neg h0] at e
  rw [e]
  refine ⟨h5, h4, h3, rfl, fun k => ?_⟩
  have := solve_place M sc.par.inf sc.par.slop sc.par.cbias sc.par.damping sc.par.gravity inp.dyn w.prevDT inp.dt sc.par.iterations
    (((w.found M sc inp).swept sc).solver sc) k
  have hb : (((w.found M sc inp).swept sc).solver sc).bodies = (w.begun M sc inp).bodies := h1
  rw [hb] at this
  exact this

theorem begun_indexed (M : Mth K) {sc : Scene K} (hm : Boxed sc) {r : Roster} {w : World K} (h : Indexed sc r w)
    (inp : Tick K) (ho : Ordered sc r (.step inp)) : Indexed sc r (w.begun M sc inp) ∧
      ∀ i, r i ≠ none → (w.begun M sc inp).shapes i = cachedShape sc.par.inf ((w.begun M sc inp).bodies (sc.figs i).body).tr (sc.figs i).cls (sc.figs i).hash := by
  obtain ⟨m, hr, hm1, hm2⟩ := h.index
  obtain ⟨ho1, ho2, ho3⟩ := ho
  have hpos := positions_place M inp.dyn inp.dt ⟨w.bodies, [], w.joints⟩
  have hprop : ∀ i, let b := (w.reshape sc inp (SolverState.positions M inp.dyn inp.dt ⟨w.bodies, [], w.joints⟩).bodies i).bb; b.L ≤ b.R ∧ b.B ≤ b.T := by
    intro i
    unfold World.reshape
    split
    · exact hm i _
    · exact h.proper i
  have hstill : ∀ j, r j = some false → (w.begun M sc inp).shapes j = w.shapes j := by
    intro j hj
    simp only [World.begun, World.reshape]
    rw [if_neg]
    rw [ho2, hj]; simp
  have hs : ∀ j, r j = some false → (w.begun M sc inp).shapes j = cachedShape sc.par.inf ((w.begun M sc inp).bodies (sc.figs j).body).tr (sc.figs j).cls (sc.figs j).hash := by
    intro j hj
    rw [hstill j hj, h.still j hj]
    have : (w.begun M sc inp).bodies (sc.figs j).body = w.bodies (sc.figs j).body := (hpos (sc.figs j).body).2 (ho3 j hj)
    rw [this]
  have hleg : Legal m (.reindexQuery inp.order (fun i => (w.reshape sc inp (SolverState.positions M inp.dyn inp.dt ⟨w.bodies, [], w.joints⟩).bodies i).bb)
      fun i => ((SolverState.positions M inp.dyn inp.dt ⟨w.bodies, [], w.joints⟩).bodies (sc.figs i).body).v) := by
    refine ⟨hprop, ho1, fun i => ?_⟩
    rw [ho2, ← hm1]
    cases m i with
    | none => simp
    | some x => obtain ⟨b, bb⟩ := x; simp
  refine ⟨⟨?_, hs, hprop, h.barred⟩, ?_⟩
  · obtain ⟨s', calls, e, hr'⟩ := (step_refines hr _ hleg).1 _ rfl
    refine ⟨_, (by simp only [BBTree.step, Option.some.injEq] at e; have e1 := congrArg Prod.fst e; dsimp only at e1; rw [← e1] at hr'; exact hr'), ?_, ?_⟩
    · intro i
      rw [← hm1]
      dsimp only
      cases m i with
      | none => rfl
      | some x => obtain ⟨b, bb⟩ := x; cases b <;> rfl
    · intro j k b hb
      dsimp only at hb
      cases hmj : m j with
      | none => rw [hmj] at hb; simp at hb
      | some x =>
        obtain ⟨c, bb⟩ := x
        rw [hmj] at hb
        cases c with
        | true =>
          simp only [Option.some.injEq, Prod.mk.injEq] at hb
          rw [← hb.2]; rfl
        | false =>
          simp only [Option.some.injEq, Prod.mk.injEq] at hb
          rw [hstill j (by rw [← hm1, hmj]; rfl), ← hb.2]
          exact hm2 j _ _ hmj
  · intro i hi
    rcases hri : r i with _ | b
    · exact absurd hri hi
    · cases b with
      | false => exact hs i hri
      | true =>
        show w.reshape sc inp _ i = _
        unfold World.reshape
        rw [if_pos ((ho2 i).2 hri)]
        rfl

theorem recache_boxed {sc : Scene K} (hm : Boxed sc) {w : World K} (i : Nat)
    (hp : ∀ i, (w.shapes i).bb.L ≤ (w.shapes i).bb.R ∧ (w.shapes i).bb.B ≤ (w.shapes i).bb.T) :
    ∀ j, ((w.recache sc i).shapes j).bb.L ≤ ((w.recache sc i).shapes j).bb.R ∧ ((w.recache sc i).shapes j).bb.B ≤ ((w.recache sc i).shapes j).bb.T := by
  intro j
  simp only [World.recache]
  split
  · exact hm i _
  · exact hp j

theorem recache_at (sc : Scene K) (w : World K) (i : Nat) : (w.recache sc i).shapes i = cachedShape sc.par.inf (w.bodies (sc.figs i).body).tr (sc.figs i).cls (sc.figs i).hash := by
  simp [World.recache]
theorem recache_off (sc : Scene K) (w : World K) {i j : Nat} (h : j ≠ i) : (w.recache sc i).shapes j = w.shapes j := by
  simp [World.recache, h]

theorem run1_indexed (M : Mth K) {sc : Scene K} (hm : Boxed sc) {r : Roster} {w : World K} (h : Indexed sc r w)
    (op : WorldOp K) (ho : Ordered sc r op) : ∃ w', w.run1 M sc op = some w' ∧ Indexed sc (rosterStep r op) w' := by
  obtain ⟨m, hr, hm1, hm2⟩ := h.index
  have hnone : ∀ i, r i = none → m i = none := by
    intro i hi
    have := hm1 i
    rw [hi] at this
    exact Option.map_eq_none_iff.1 this
  cases op with
  | step inp =>
    refine ⟨_, rfl, ?_⟩
    by_cases h0 : inp.dt = 0
    · have : w.step M sc inp = w := by unfold World.step; rw [if_pos h0]
      rw [this]; exact h
    · obtain ⟨e1, e2, e3, -, e5⟩ := step_frame M sc inp w h0
      obtain ⟨⟨b1, b2, b4, b5⟩, -⟩ := begun_indexed M hm h inp ho
      generalize w.begun M sc inp = v at e1 e2 e5 b1 b2 b4 b5
      generalize w.step M sc inp = w' at e1 e2 e3 e5
      refine ⟨by rw [e1, e2]; exact b1, fun j hj => ?_, by rw [e2]; exact b4, by rw [e3]; exact h.barred⟩
      rw [e2, (e5 _).2.2.2]; exact b2 j hj
  | addDyn i =>
    obtain ⟨t, calls, e, hr'⟩ := (step_refines hr (.insertDyn i ((w.recache sc i).shapes i).bb (w.bodies (sc.figs i).body).v)
      (recache_boxed hm i h.proper i)).1 (m.set i (some (true, ((w.recache sc i).shapes i).bb))) (by simp only [indexStep, hnone i ho]; rfl)
    simp only [BBTree.step, Option.map_eq_some_iff, Prod.mk.injEq] at e
    obtain ⟨t', e, rfl, -⟩ := e
    have e' : BBTree.insertDyn (w.recache sc i).tree i ((w.recache sc i).shapes i).bb ((w.recache sc i).bodies (sc.figs i).body).v = some t' := e
    refine ⟨{ w.recache sc i with tree := t', ids := keptIds (w.recache sc i).tree.pairs (w.recache sc i).ids }, (by simp only [World.run1, e', Option.map_some]), ⟨_, hr', ?_, ?_⟩, ?_, recache_boxed hm i h.proper, h.barred⟩
    · intro j
      simp only [Index.set, rosterStep, Roster.set]
      split
      · rfl
      · exact hm1 j
    · intro j k b hb
      simp only [Index.set] at hb
      split at hb
      · rename_i hj
        simp only [Option.some.injEq, Prod.mk.injEq] at hb
        rw [hj]; exact hb.2.symm
      · rename_i hj
        rw [recache_off sc w hj]; exact hm2 j k b hb
    · intro j hj
      simp only [rosterStep, Roster.set] at hj
      split at hj
      · simp at hj
      · rename_i hne
        show (w.recache sc i).shapes j = _
        rw [recache_off sc w hne]; exact h.still j hj
  | addStat i =>
    obtain ⟨t, calls, e, hr'⟩ := (step_refines hr (.insertStat i ((w.recache sc i).shapes i).bb)
      (recache_boxed hm i h.proper i)).1 (m.set i (some (false, ((w.recache sc i).shapes i).bb))) (by simp only [indexStep, hnone i ho]; rfl)
    simp only [BBTree.step, Option.map_eq_some_iff, Prod.mk.injEq] at e
    obtain ⟨t', e, rfl, -⟩ := e
    have e' : BBTree.insertStat (w.recache sc i).tree i ((w.recache sc i).shapes i).bb = some t' := e
    refine ⟨{ w.recache sc i with tree := t', ids := keptIds (w.recache sc i).tree.pairs (w.recache sc i).ids }, (by simp only [World.run1, e', Option.map_some]), ⟨_, hr', ?_, ?_⟩, ?_, recache_boxed hm i h.proper, h.barred⟩
    · intro j
      simp only [Index.set, rosterStep, Roster.set]
      split
      · rfl
      · exact hm1 j
    · intro j k b hb
      simp only [Index.set] at hb
      split at hb
      · rename_i hj
        simp only [Option.some.injEq, Prod.mk.injEq] at hb
        rw [hj]; exact hb.2.symm
      · rename_i hj
        rw [recache_off sc w hj]; exact hm2 j k b hb
    · intro j hj
      show (w.recache sc i).shapes j = _
      by_cases hne : j = i
      · rw [hne, recache_at]; rfl
      · simp only [rosterStep, Roster.set, if_neg hne] at hj
        rw [recache_off sc w hne]; exact h.still j hj
  | removeDyn i =>
    have hi : ∃ b, m i = some (true, b) := by
      have := hm1 i
      have ho' : r i = some true := ho
      rw [ho', Option.map_eq_some_iff] at this
      obtain ⟨⟨c, b⟩, h1, h2⟩ := this
      exact ⟨b, by rw [h1]; simp only at h2; rw [h2]⟩
    obtain ⟨b0, hb0⟩ := hi
    obtain ⟨t, calls, e, hr'⟩ := (step_refines hr (.removeDyn i) trivial).1 (m.set i none) (by simp only [indexStep, hb0])
    simp only [BBTree.step, Option.map_eq_some_iff, Prod.mk.injEq] at e
    obtain ⟨t', e, rfl, -⟩ := e
    refine ⟨{ w.forget i with tree := t', ids := keptIds t'.pairs w.ids }, (by simp only [World.run1, e, Option.map_some]), ⟨_, hr', ?_, ?_⟩, ?_, h.proper, h.barred⟩
    · intro j
      simp only [Index.set, rosterStep, Roster.set]
      split
      · rfl
      · exact hm1 j
    · intro j k b hb
      simp only [Index.set] at hb
      split at hb
      · simp at hb
      · exact hm2 j k b hb
    · intro j hj
      simp only [rosterStep, Roster.set] at hj
      split at hj
      · simp at hj
      · exact h.still j hj
  | removeStat i =>
    have hi : ∃ b, m i = some (false, b) := by
      have := hm1 i
      have ho' : r i = some false := ho
      rw [ho', Option.map_eq_some_iff] at this
      obtain ⟨⟨c, b⟩, h1, h2⟩ := this
      exact ⟨b, by rw [h1]; simp only at h2; rw [h2]⟩
    obtain ⟨b0, hb0⟩ := hi
    obtain ⟨t, calls, e, hr'⟩ := (step_refines hr (.removeStat i) trivial).1 (m.set i none) (by simp only [indexStep, hb0])
    simp only [BBTree.step, Option.map_eq_some_iff, Prod.mk.injEq] at e
    obtain ⟨t', e, rfl, -⟩ := e
    refine ⟨{ w.forget i with tree := t', ids := keptIds t'.pairs w.ids }, (by simp only [World.run1, e, Option.map_some]), ⟨_, hr', ?_, ?_⟩, ?_, h.proper, h.barred⟩
    · intro j
      simp only [Index.set, rosterStep, Roster.set]
      split
      · rfl
      · exact hm1 j
    · intro j k b hb
      simp only [Index.set] at hb
      split at hb
      · simp at hb
      · exact hm2 j k b hb
    · intro j hj
      simp only [rosterStep, Roster.set] at hj
      split at hj
      · simp at hj
      · exact h.still j hj
  | reindex i =>
    have hpi := recache_boxed hm i h.proper i
    obtain ⟨m1, hm1', hr1, h1a, h1b, h1c⟩ : ∃ m1, indexStep m (.reindexDyn i ((w.recache sc i).shapes i).bb (w.bodies (sc.figs i).body).v) = some m1 ∧
        Rel m1 (BBTree.reindexDyn w.tree i ((w.recache sc i).shapes i).bb (w.bodies (sc.figs i).body).v) ∧ (∀ j, (m1 j).map (·.1) = r j) ∧
        (∀ j k b, j ≠ i → m1 j = some (k, b) → m j = some (k, b)) ∧ ∀ b, m1 i = some (true, b) → b = ((w.recache sc i).shapes i).bb := by
      obtain ⟨m1, e1⟩ : ∃ m1, indexStep m (.reindexDyn i ((w.recache sc i).shapes i).bb (w.bodies (sc.figs i).body).v) = some m1 := by
        simp only [indexStep]; split <;> exact ⟨_, rfl⟩
      obtain ⟨t, calls, e, hr'⟩ := (step_refines hr (.reindexDyn i ((w.recache sc i).shapes i).bb (w.bodies (sc.figs i).body).v) hpi).1 m1 e1
      simp only [BBTree.step, Option.some.injEq, Prod.mk.injEq] at e
      obtain ⟨rfl, -⟩ := e
      refine ⟨m1, e1, hr', ?_⟩
      simp only [indexStep] at e1
      split at e1
      · rename_i b hb
        simp only [Option.some.injEq] at e1
        subst e1
        constructor
        · intro j
          simp only [Index.set]
          split
          · rename_i hj; rw [hj, ← hm1, hb]; rfl
          · exact hm1 j
        · refine ⟨fun j k b hj hb' => ?_, fun b hb' => ?_⟩
          · simp only [Index.set, if_neg hj] at hb'
            exact hb'
          · simp only [Index.set, if_true, Option.some.injEq, Prod.mk.injEq, true_and] at hb'
            exact hb'.symm
      · rename_i hno
        simp only [Option.some.injEq] at e1
        subst e1
        exact ⟨hm1, fun j k b _ hb => hb, fun b hb => absurd hb (hno b)⟩
    obtain ⟨m2, hr2, h2a, h2b⟩ : ∃ m2, Rel m2 (BBTree.reindexStat (BBTree.reindexDyn w.tree i ((w.recache sc i).shapes i).bb (w.bodies (sc.figs i).body).v) i
        ((w.recache sc i).shapes i).bb) ∧ (∀ j, (m2 j).map (·.1) = r j) ∧ ∀ j k b, m2 j = some (k, b) → b = ((w.recache sc i).shapes j).bb := by
      obtain ⟨m2, e2⟩ : ∃ m2, indexStep m1 (.reindexStat i ((w.recache sc i).shapes i).bb) = some m2 := by
        simp only [indexStep]; split <;> exact ⟨_, rfl⟩
      obtain ⟨t, calls, e, hr'⟩ := (step_refines hr1 (.reindexStat i ((w.recache sc i).shapes i).bb) hpi).1 m2 e2
      simp only [BBTree.step, Option.some.injEq, Prod.mk.injEq] at e
      obtain ⟨rfl, -⟩ := e
      refine ⟨m2, hr', ?_⟩
      simp only [indexStep] at e2
      split at e2
      · rename_i b hb
        simp only [Option.some.injEq] at e2
        subst e2
        constructor
        · intro j
          simp only [Index.set]
          split
          · rename_i hj; rw [hj, ← h1a, hb]; rfl
          · exact h1a j
        · intro j k b hb'
          simp only [Index.set] at hb'
          split at hb'
          · rename_i hj
            simp only [Option.some.injEq, Prod.mk.injEq] at hb'
            rw [hj]; exact hb'.2.symm
          · rename_i hj
            rw [recache_off sc w hj]; exact hm2 j k b (h1b j k b hj hb')
      · rename_i hno
        simp only [Option.some.injEq] at e2
        subst e2
        refine ⟨h1a, fun j k b hb => ?_⟩
        by_cases hj : j = i
        · subst hj
          cases k with
          | true => exact h1c b hb
          | false => exact absurd hb (hno b)
        · rw [recache_off sc w hj]; exact hm2 j k b (h1b j k b hj hb)
    refine ⟨_, rfl, ⟨m2, hr2, h2a, h2b⟩, fun j hj => ?_, recache_boxed hm i h.proper, h.barred⟩
    show (w.recache sc i).shapes j = _
    by_cases hne : j = i
    · rw [hne, recache_at]; rfl
    · rw [recache_off sc w hne]; exact h.still j hj
  | setBody k b =>
    refine ⟨_, rfl, h.index, fun j hj => ?_, h.proper, h.barred⟩
    show w.shapes j = cachedShape sc.par.inf (if (sc.figs j).body = k then b else w.bodies (sc.figs j).body).tr _ _
    rw [if_neg (ho j hj)]; exact h.still j hj
  | setJoints js barred => exact ⟨_, rfl, h.index, h.still, h.proper, ho⟩

/-- A history that keeps the rules does not crash. -/
theorem run_indexed (M : Mth K) {sc : Scene K} (hm : Boxed sc) (ops : List (WorldOp K)) : ∀ (r : Roster) (w : World K),
    Indexed sc r w → InOrder sc r ops → ∃ w', w.run M sc ops = some w' ∧ Indexed sc (rosterAfter r ops) w' := by
  induction ops with
  | nil => intro r w h _; exact ⟨w, rfl, h⟩
  | cons op ops ih =>
    intro r w h hl
    obtain ⟨w1, e1, h1⟩ := run1_indexed M hm h op hl.1
    obtain ⟨w2, e2, h2⟩ := ih _ _ h1 hl.2
    exact ⟨w2, by simp only [World.run, e1, e2], h2⟩

theorem init_indexed (sc : Scene K) (bodies : Nat → Body K) (shapes : Nat → CShape K)
    (hs : ∀ i, (shapes i).bb.L ≤ (shapes i).bb.R ∧ (shapes i).bb.B ≤ (shapes i).bb.T) : Indexed sc (fun _ => none) (World.init bodies shapes) :=
  ⟨⟨emptyIndex, rel_init, fun _ => rfl, (fun _ _ _ h => by cases h)⟩, (fun _ h => by cases h), hs, fun _ _ => rfl⟩

/-! ## The calls of the broad phase -/

theorem rel_calls {m : Index K} {s : BBTree.State K} (hr : Rel m s) {order : List Nat} {bbf : Nat → BB K} {vel : Nat → V2 K}
    (hq : Legal m (.reindexQuery order bbf vel)) :
    (reindexQuery s order bbf vel).2.Pairwise (fun p q => ¬ SameTwo p q) ∧
    (∀ i j, (i, j) ∈ (reindexQuery s order bbf vel).2 → i ≠ j ∧ (m i).isSome ∧ (m j).isSome ∧ ((∃ b, m i = some (true, b)) ∨ ∃ b, m j = some (true, b))) ∧
    (∀ i j, i ≠ j → (∃ b, m i = some (true, b)) → (∃ b, m j = some (true, b)) → Overlap (bbf i) (bbf j) →
      (i, j) ∈ (reindexQuery s order bbf vel).2 ∨ (j, i) ∈ (reindexQuery s order bbf vel).2) ∧
    (∀ i j b, (∃ b, m i = some (true, b)) → m j = some (false, b) → Overlap (bbf i) b →
      (i, j) ∈ (reindexQuery s order bbf vel).2 ∨ (j, i) ∈ (reindexQuery s order bbf vel).2) := by
  obtain ⟨hp, _, hor⟩ := hq
  obtain ⟨a1, a2, a3, a4, a5, a6, a7⟩ := reindexQuery_spec hr.ok order bbf vel hp
    (fun i hi => (hor i).2 ((hr.dyn_iff i).1 hi))
  have le1 : ∀ u v : Leaf K, BBTree.meet u v ≤ 1 := by intro u v; unfold BBTree.meet; split <;> omega
  have dynleaf : ∀ i, i ∈ ids (leavesOf s.dyn) → ∃ l ∈ leavesOf (reindexQuery s order bbf vel).1.dyn, l.id = i :=
    fun i h => mem_ids.1 ((a4 i).2 h)
  have find : ∀ i, (∃ b, m i = some (true, b)) → ∃ l ∈ leavesOf (reindexQuery s order bbf vel).1.dyn, l.id = i :=
    fun i hi => mem_ids.1 ((a4 i).2 ((hr.dyn_iff i).2 hi))
  have some_of : ∀ i, i ∈ ids (leavesOf s.dyn ++ leavesOf s.stat) → (m i).isSome = true := by
    intro i hi
    rw [ids_append, List.mem_append] at hi
    rcases hi with hi | hi
    · obtain ⟨b, hb⟩ := (hr.dyn_iff i).1 hi; simp [hb]
    · obtain ⟨b, hb⟩ := (hr.stat_iff i).1 hi; simp [hb]
  have once : ∀ i j, (reindexQuery s order bbf vel).2.count (i, j) + (reindexQuery s order bbf vel).2.count (j, i) ≤ 1 := by
    intro i j
    by_cases hex : (i, j) ∈ (reindexQuery s order bbf vel).2 ∨ (j, i) ∈ (reindexQuery s order bbf vel).2
    · have hfacts : i ≠ j ∧ i ∈ ids (leavesOf s.dyn ++ leavesOf s.stat) ∧ j ∈ ids (leavesOf s.dyn ++ leavesOf s.stat) ∧
          (i ∈ ids (leavesOf s.dyn) ∨ j ∈ ids (leavesOf s.dyn)) := by
        rcases hex with h | h
        · exact a7 _ h
        · obtain ⟨h1, h2, h3, h4⟩ := a7 _ h
          exact ⟨Ne.symm h1, h3, h2, h4.symm⟩
      obtain ⟨hne, hi, hj, hd⟩ := hfacts
      rw [ids_append, List.mem_append] at hi hj
      rcases hd with hd | hd
      · obtain ⟨u, hu, rfl⟩ := dynleaf i hd
        rcases hj with hj | hj
        · obtain ⟨v, hv, rfl⟩ := dynleaf j hj
          rw [a5 u hu v hv hne]; exact le1 u v
        · obtain ⟨t, ht, rfl⟩ := mem_ids.1 hj
          rw [Nat.add_comm, a6 t ht u hu]; exact le1 t u
      · obtain ⟨v, hv, rfl⟩ := dynleaf j hd
        rcases hi with hi | hi
        · obtain ⟨u, hu, rfl⟩ := dynleaf i hi
          rw [a5 u hu v hv hne]; exact le1 u v
        · obtain ⟨t, ht, rfl⟩ := mem_ids.1 hi
          rw [a6 t ht v hv]; exact le1 t v
    · rw [not_or] at hex
      rw [List.count_eq_zero.2 hex.1, List.count_eq_zero.2 hex.2]; omega
  have mem_of : ∀ i j n, (reindexQuery s order bbf vel).2.count (i, j) + (reindexQuery s order bbf vel).2.count (j, i) = n + 1 →
      (i, j) ∈ (reindexQuery s order bbf vel).2 ∨ (j, i) ∈ (reindexQuery s order bbf vel).2 := by
    intro i j n h
    by_cases h1 : (i, j) ∈ (reindexQuery s order bbf vel).2
    · exact .inl h1
    · rw [List.count_eq_zero.2 h1] at h
      exact .inr (List.count_pos_iff.1 (by omega))
  refine ⟨?_, ?_, ?_, ?_⟩
  · generalize (reindexQuery s order bbf vel).2 = l at once a7
    induction l with
    | nil => exact .nil
    | cons p l ih =>
      refine List.pairwise_cons.2 ⟨?_, ih ?_ ?_⟩
      · rintro q hq (rfl | rfl)
        · have := once p.1 p.2
          have h2 : 0 < l.count p := List.count_pos_iff.2 hq
          simp only [Prod.mk.eta, List.count_cons_self] at this
          omega
        · have := once q.2 q.1
          have h2 : 0 < l.count q := List.count_pos_iff.2 hq
          have h3 : (q.2, q.1) ≠ q := fun h => (a7 q (List.mem_cons_of_mem _ hq)).1 (congrArg Prod.fst h).symm
          simp only [Prod.mk.eta, List.count_cons_self, List.count_cons_of_ne h3] at this
          omega
      · intro i j
        have := once i j
        have h1 := List.count_le_count_cons (l := l) (a := (i, j)) (b := p)
        have h2 := List.count_le_count_cons (l := l) (a := (j, i)) (b := p)
        omega
      · intro q hq; exact a7 q (List.mem_cons_of_mem _ hq)
  · intro i j h
    obtain ⟨h1, h2, h3, h4⟩ := a7 _ h
    refine ⟨h1, some_of i h2, some_of j h3, ?_⟩
    rcases h4 with h4 | h4
    · exact Or.inl ((hr.dyn_iff i).1 h4)
    · exact Or.inr ((hr.dyn_iff j).1 h4)
  · intro i j hne hi hj ho
    obtain ⟨u, hu, rfl⟩ := find i hi
    obtain ⟨v, hv, rfl⟩ := find j hj
    apply mem_of _ _ 0
    rw [a5 u hu v hv hne]
    unfold BBTree.meet
    rw [if_pos (intersects_of_contains (a3 u hu) (a3 v hv) (overlap_intersects ho))]
  · intro i j b hi hj ho
    obtain ⟨u, hu, rfl⟩ := find i hi
    obtain ⟨t, ht, rfl, hc⟩ := hr.s1 j b hj
    apply mem_of _ _ 0
    rw [Nat.add_comm, a6 t ht u hu, meet_symm]
    unfold BBTree.meet
    rw [if_pos (intersects_of_contains (a3 u hu) hc (overlap_intersects ho))]

theorem not_reject (body : Nat → Nat) (flt : Nat → ShapeFilter) (bb : Nat → BB K) (hbb : ∀ i, (bb i).L ≤ (bb i).R ∧ (bb i).B ≤ (bb i).T) (barred : Nat → Nat → Bool) (i j : Nat) :
    queryReject body flt bb barred i j = false ↔ body i ≠ body j ∧ Accepts (flt i) (flt j) ∧ Overlap (bb i) (bb j) ∧ barred (body i) (body j) = false := by
  have hf : (flt i).reject (flt j) = false ↔ Accepts (flt i) (flt j) := C05_accept_iff (flt i) (flt j)
  have ho : (bb i).intersects (bb j) = true ↔ Overlap (bb i) (bb j) := ⟨intersects_overlap (hbb i) (hbb j), overlap_intersects⟩
  rw [← hf, ← ho]
  unfold queryReject
  by_cases h1 : body i = body j
  · simp [h1]
  · cases (flt i).reject (flt j) <;> cases (bb i).intersects (bb j) <;> cases barred (body i) (body j) <;> simp [h1]

namespace Spec
/-- How far the collision of two shapes had got before a step. -/
def stateOf (w : World K) (ab : Nat × Nat) : ArbState :=
  match w.cache.find? (fun o => o.is ab.1 ab.2) with
  | none => .first
  | some h => if (h.a, h.b) ∈ w.active then .normal else h.arb.state

/-- The user and the shapes want the collision to have an effect: the collision has not been refused when it began, or is not refused now if it begins now;
it is not refused this time; neither shape is a sensor; and one of the bodies has a mass. -/
def Wanted (sc : Scene K) (inp : Tick K) (w : World K) (ab : Nat × Nat) : Prop :=
  stateOf w ab ≠ .ignore ∧ ((stateOf w ab = .first ∨ stateOf w ab = .cached) → inp.begins ab.1 ab.2 = true) ∧ inp.pre ab.1 ab.2 = true ∧
    (sc.figs ab.1).sensor = false ∧ (sc.figs ab.2).sensor = false ∧
    ¬ ((w.bodies (sc.figs ab.1).body).m = sc.par.inf ∧ (w.bodies (sc.figs ab.2).body).m = sc.par.inf)

end Spec

theorem find_aged (w : World K) (a b : Nat) : w.aged.find? (fun o => o.is a b) =
    (w.cache.find? (fun o => o.is a b)).map fun h => if w.active.contains (h.a, h.b) then { h with arb := { h.arb with state := .normal } } else h := by
  unfold World.aged
  rw [List.find?_map]
  congr 1
  congr 1
  funext h
  simp only [Function.comp]
  split <;> rfl

theorem passes_wanted (M : Mth K) (sc : Scene K) (inp : Tick K) (w : World K) (ab : Nat × Nat) (info : Info K)
    (hmass : ∀ k, ((w.begun M sc inp).bodies k).m = (w.bodies k).m) :
    (w.begun M sc inp).passes sc inp ab ((w.begun M sc inp).updated sc inp ab info) ↔ Wanted sc inp w ab := by
  have hst : (heldArb (w.begun M sc inp).cache ab.1 ab.2).state = stateOf w ab := by
    show (heldArb w.aged ab.1 ab.2).state = _
    unfold heldArb stateOf
    rw [find_aged]
    cases w.cache.find? (fun o => o.is ab.1 ab.2) with
    | none => rfl
    | some h =>
      simp only [Option.map_some, List.contains_iff_mem]
      split <;> rfl
  have hup : ((w.begun M sc inp).updated sc inp ab info).state =
      if (stateOf w ab = .first ∨ stateOf w ab = .cached) then (if inp.begins ab.1 ab.2 = true then .first else .ignore) else stateOf w ab := by
    unfold World.updated
    simp only [Arbiter.update, hst]
    cases stateOf w ab <;> cases inp.begins ab.1 ab.2 <;> simp
  unfold World.passes Wanted
  rw [hup, hmass, hmass]
  cases stateOf w ab <;> cases inp.begins ab.1 ab.2 <;> cases inp.pre ab.1 ab.2 <;> cases (sc.figs ab.1).sensor <;> cases (sc.figs ab.2).sensor <;> simp


/-! ## What a step solves, as the program computes it -/

namespace Spec
/-- Two shapes of the space that must be looked at: one of them moves, they are on different bodies, their filters accept each other, no joint bars them, and their
boxes, as computed, overlap. -/
def Nearby (sc : Scene K) (r : Roster) (w : World K) (i j : Nat) : Prop :=
  i ≠ j ∧ r i ≠ none ∧ r j ≠ none ∧ (r i = some true ∨ r j = some true) ∧ (sc.figs i).body ≠ (sc.figs j).body ∧
    Accepts (sc.figs i).filter (sc.figs j).filter ∧ w.barred (sc.figs i).body (sc.figs j).body = false ∧ Overlap (w.shapes i).bb (w.shapes j).bb

open Classical in
/-- The shapes are as their bodies stand; the narrow phase is asked about exactly the pairs that are near, each once; and solved are exactly those of them for which
it answers with contacts, if the collision is wanted. -/
def StepHonest (M : Mth K) (sc : Scene K) (inp : Tick K) (r : Roster) (w w' : World K) : Prop :=
  (∀ i, r i ≠ none → w'.shapes i = cachedShape sc.par.inf (w'.bodies (sc.figs i).body).tr (sc.figs i).cls (sc.figs i).hash) ∧
  ∃ (asked : List (Nat × Nat)) (ids : Nat × Nat → Nat), asked.Pairwise (fun p q => ¬ SameTwo p q) ∧ (∀ i j, (∃ p ∈ asked, SameTwo p (i, j)) ↔ Nearby sc r w' i j) ∧
    w'.active = (asked.filterMap fun p => (collide M sc.par.inf sc.tiny (w'.shapes p.1) (w'.shapes p.2) (ids p)).bind fun info =>
      if info.contacts = [] then none else some (info.pair p)).filter fun p => decide (Wanted sc inp w p)
end Spec

theorem accepts_swap {f g : ShapeFilter} (h : Accepts f g) : Accepts g f := by
  obtain ⟨g6, g6', g6''⟩ := h
  refine ⟨?_, g6'', g6'⟩
  by_cases hz : g.group = 0#64
  · exact .inl hz
  · refine .inr fun hE => ?_
    rcases g6 with g6 | g6
    · exact hz (hE.trans g6)
    · exact g6 hE.symm

theorem step_honest (M : Mth K) {sc : Scene K} (hm : Boxed sc) {r : Roster} {w : World K} (h : Indexed sc r w) (inp : Tick K) (ho : Ordered sc r (.step inp)) (h0 : inp.dt ≠ 0) :
    StepHonest M sc inp r w (w.step M sc inp) := by
  classical
  obtain ⟨e1, e2, e3, e4, e5⟩ := step_frame M sc inp w h0
  obtain ⟨hb, hcur⟩ := begun_indexed M hm h inp ho
  obtain ⟨m, hr, hm1, hm2⟩ := h.index
  have hmass : ∀ k, ((w.begun M sc inp).bodies k).m = (w.bodies k).m := fun k => (positions_place M inp.dyn inp.dt ⟨w.bodies, [], w.joints⟩ k).1
  have hleg : Legal m (.reindexQuery inp.order (fun i => ((w.begun M sc inp).shapes i).bb) fun i => ((w.begun M sc inp).bodies (sc.figs i).body).v) := by
    refine ⟨hb.proper, ho.1, fun i => ?_⟩
    rw [ho.2.1, ← hm1]
    cases m i with
    | none => simp
    | some x => obtain ⟨b, bb⟩ := x; simp
  obtain ⟨c1, c2, c3, c4⟩ := rel_calls hr hleg
  have hcalls : (reindexQuery w.tree inp.order (fun i => ((w.begun M sc inp).shapes i).bb) fun i => ((w.begun M sc inp).bodies (sc.figs i).body).v).2 =
      w.calls M sc inp := rfl
  rw [hcalls] at c1 c2 c3 c4
  have dyn_of : ∀ i, r i = some true ↔ ∃ b, m i = some (true, b) := by
    intro i; rw [← hm1]
    cases m i with
    | none => simp
    | some x => obtain ⟨b, bb⟩ := x; simp
  have stat_of : ∀ i, r i = some false ↔ ∃ b, m i = some (false, b) := by
    intro i; rw [← hm1]
    cases m i with
    | none => simp
    | some x => obtain ⟨b, bb⟩ := x; simp
  have some_of : ∀ i, (m i).isSome → r i ≠ none := by
    intro i; rw [← hm1]
    cases m i <;> simp
  have hrej := not_reject (fun x => (sc.figs x).body) (fun x => (sc.figs x).filter) (fun x => ((w.begun M sc inp).shapes x).bb) hb.proper (w.begun M sc inp).barred
  have hbar : (w.begun M sc inp).barred = (w.step M sc inp).barred := e3.symm
  have nsymm : ∀ i j, Nearby sc r (w.step M sc inp) i j → Nearby sc r (w.step M sc inp) j i := by
    rintro i j ⟨g1, g2, g3, g4, g5, g6, g7, q, q1, q2⟩
    exact ⟨g1.symm, g3, g2, g4.symm, g5.symm, accepts_swap g6, by rw [e3, h.barred, ← e3]; exact g7, q, q2, q1⟩
  have hnear : ∀ i j, (i, j) ∈ w.calls M sc inp →
      (queryReject (fun x => (sc.figs x).body) (fun x => (sc.figs x).filter) (fun x => ((w.begun M sc inp).shapes x).bb) (w.begun M sc inp).barred i j = false ↔
        Nearby sc r (w.step M sc inp) i j) := by
    intro i j hp
    obtain ⟨n1, n2, n3, n4⟩ := c2 i j hp
    rw [← dyn_of, ← dyn_of] at n4
    rw [hrej, hbar]
    unfold Nearby
    rw [e2]
    constructor
    · rintro ⟨g5, g6, g7, g8⟩; exact ⟨n1, some_of _ n2, some_of _ n3, n4, g5, g6, g8, g7⟩
    · rintro ⟨-, -, -, -, g5, g6, g7, g8⟩; exact ⟨g5, g6, g8, g7⟩
  have hcall : ∀ i j, Nearby sc r (w.step M sc inp) i j → (i, j) ∈ w.calls M sc inp ∨ (j, i) ∈ w.calls M sc inp := by
    rintro i j ⟨g1, g2, g3, g4, -, -, -, hov⟩
    rw [e2] at hov
    have two : ∀ i j, r i = some true → r j ≠ none → i ≠ j → Overlap ((w.begun M sc inp).shapes i).bb ((w.begun M sc inp).shapes j).bb →
        (i, j) ∈ w.calls M sc inp ∨ (j, i) ∈ w.calls M sc inp := by
      intro i j hi hj hne hov
      rcases hrj : r j with _ | b
      · exact absurd hrj hj
      · cases b with
        | true => exact c3 i j hne ((dyn_of i).1 hi) ((dyn_of j).1 hrj) hov
        | false =>
          obtain ⟨b, hb'⟩ := (stat_of j).1 hrj
          refine c4 i j b ((dyn_of i).1 hi) hb' ?_
          have : ((w.begun M sc inp).shapes j) = w.shapes j := by
            show w.reshape sc inp _ j = _
            unfold World.reshape
            rw [if_neg]
            rw [ho.2.1, hrj]; simp
          rw [this, ← hm2 j _ b hb'] at hov
          exact hov
    rcases g4 with g4 | g4
    · exact two i j g4 g3 g1 hov
    · obtain ⟨q, h1, h2⟩ := hov
      exact (two j i g4 g2 g1.symm ⟨q, h2, h1⟩).symm
  refine ⟨fun i hi => by rw [e2, hcur i hi, (e5 _).2.2.2],
    (w.calls M sc inp).filter (fun p => !queryReject (fun x => (sc.figs x).body) (fun x => (sc.figs x).filter) (fun x => ((w.begun M sc inp).shapes x).bb)
      (w.begun M sc inp).barred p.1 p.2), fun p => if (w.begun M sc inp).tree.pairs.contains p then (w.begun M sc inp).ids p.1 p.2 else 0, c1.filter _, fun i j => ?_, ?_⟩
  · simp only [List.mem_filter, Bool.not_eq_true']
    constructor
    · rintro ⟨p, ⟨hp, hq⟩, hs⟩
      have := (hnear p.1 p.2 hp).1 hq
      rcases hs with rfl | rfl
      · exact this
      · exact nsymm _ _ this
    · intro hn
      rcases hcall i j hn with hc | hc
      · exact ⟨(i, j), ⟨hc, (hnear i j hc).2 hn⟩, .inl rfl⟩
      · exact ⟨(j, i), ⟨hc, (hnear j i hc).2 (nsymm _ _ hn)⟩, .inr rfl⟩
  · have hact : (w.step M sc inp).active = (w.calls M sc inp).filterMap ((w.begun M sc inp).solved M sc inp) := by
      rw [e4]
      exact ((meets_active M sc inp (w.calls M sc inp) (w.begun M sc inp) c1).1).trans (List.nil_append _)
    rw [hact, List.filter_filterMap, List.filterMap_filter, e2]
    apply List.filterMap_congr
    intro p hp
    unfold World.solved World.hit World.answer
    cases hq : queryReject (fun x => (sc.figs x).body) (fun x => (sc.figs x).filter) (fun x => ((w.begun M sc inp).shapes x).bb) (w.begun M sc inp).barred p.1 p.2 with
    | true => rfl
    | false =>
      simp only [Bool.false_eq_true, if_false, Bool.not_false, if_true]
      cases collide M sc.par.inf sc.tiny ((w.begun M sc inp).shapes p.1) ((w.begun M sc inp).shapes p.2)
          (if (w.begun M sc inp).tree.pairs.contains p then (w.begun M sc inp).ids p.1 p.2 else 0) with
      | none => rfl
      | some info =>
        by_cases hc : info.contacts = []
        · simp [hc, Option.filter]
        · have hc' : info.contacts.isEmpty = false := by rw [List.isEmpty_eq_false_iff]; exact hc
          simp only [Option.filter, hc', Bool.not_false, if_true, Option.bind_some, if_neg hc, decide_eq_true_eq]
          by_cases hw : Wanted sc inp w (info.pair p)
          · rw [if_pos ((passes_wanted M sc inp w _ info hmass).2 hw), if_pos hw]
          · rw [if_neg (fun h => hw ((passes_wanted M sc inp w _ info hmass).1 h)), if_neg hw]

/-! ## Boxes are not inside out -/

namespace Spec
/-- No radius is negative, and a polygon has vertexes. -/
def Sized : Cls K → Prop
  | .circle c => 0 ≤ c.radius
  | .segment s => 0 ≤ s.radius
  | .poly p => 0 ≤ p.radius ∧ p.loc ≠ []
end Spec

theorem sub_le_add_radius {x y r : K} (h : x ≤ y) (hr : 0 ≤ r) : x - r ≤ y + r := by
  have h1 := Rounded.sub_le_sub x y r 0 h hr
  have h2 := Rounded.add_le_add 0 r y hr
  rw [Rounded.sub_zero] at h1
  rw [Rounded.add_zero] at h2
  exact h1.trans h2

theorem fold_min_box {α : Type} (f : α → K) (l : List α) : ∀ a : K, l.foldl (fun m s => min m (f s)) a ≤ a ∧ ∀ x ∈ l, l.foldl (fun m s => min m (f s)) a ≤ f x := by
  induction l with
  | nil => intro a; exact ⟨le_rfl, fun x hx => absurd hx List.not_mem_nil⟩
  | cons y l ih =>
    intro a
    obtain ⟨h1, h2⟩ := ih (min a (f y))
    refine ⟨h1.trans (min_le_left _ _), fun x hx => ?_⟩
    rcases List.mem_cons.1 hx with rfl | hx
    · exact h1.trans (min_le_right _ _)
    · exact h2 x hx

theorem fold_max_box {α : Type} (f : α → K) (l : List α) : ∀ a : K, a ≤ l.foldl (fun m s => max m (f s)) a ∧ ∀ x ∈ l, f x ≤ l.foldl (fun m s => max m (f s)) a := by
  induction l with
  | nil => intro a; exact ⟨le_rfl, fun x hx => absurd hx List.not_mem_nil⟩
  | cons y l ih =>
    intro a
    obtain ⟨h1, h2⟩ := ih (max a (f y))
    refine ⟨(le_max_left _ _).trans h1, fun x hx => ?_⟩
    rcases List.mem_cons.1 hx with rfl | hx
    · exact (le_max_right _ _).trans h1
    · exact h2 x hx

theorem sized_boxed {sc : Scene K} (h : ∀ i, Sized (sc.figs i).cls) : Boxed sc := by
  intro i t
  have hi := h i
  dsimp only [cachedShape]
  cases hc : (sc.figs i).cls with
  | circle c =>
    rw [hc] at hi
    exact ⟨sub_le_add_radius le_rfl hi, sub_le_add_radius le_rfl hi⟩
  | segment s =>
    rw [hc] at hi
    refine ⟨sub_le_add_radius ?_ hi, sub_le_add_radius ?_ hi⟩ <;>
    · split
      · rename_i h; exact h.le
      · rename_i h; exact not_lt.1 h
  | poly p =>
    rw [hc] at hi
    obtain ⟨x, hx⟩ := List.exists_mem_of_ne_nil _ hi.2
    have hx' : (⟨t.apply x.v0, t.applyVector x.n⟩ : Plane K) ∈ p.loc.map fun s => (⟨t.apply s.v0, t.applyVector s.n⟩ : Plane K) := List.mem_map_of_mem hx
    exact ⟨sub_le_add_radius (((fold_min_box (fun s : Plane K => s.v0.x) _ _).2 _ hx').trans ((fold_max_box (fun s : Plane K => s.v0.x) _ _).2 _ hx')) hi.1,
      sub_le_add_radius (((fold_min_box (fun s : Plane K => s.v0.y) _ _).2 _ hx').trans ((fold_max_box (fun s : Plane K => s.v0.y) _ _).2 _ hx')) hi.1⟩

end Cm
