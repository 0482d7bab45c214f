import Verif.Model.World
import Verif.Props.CentreOfMass
import Verif.Props.ShapePoly
/-! # C111: the whole simulation: every step is a solver's step on the collisions found -/
set_option linter.unusedSectionVars false
set_option linter.unusedSimpArgs false
set_option linter.unusedVariables false

namespace Cm
open Spec
section
variable {K : Type} [Zero K] [One K] [Add K] [Sub K] [Mul K] [Div K] [Neg K] [NatCast K] [LinearOrder K]

/-! ## What a collision changes -/

theorem collided_frame (sc : Scene K) (inp : Tick K) (w : World K) (ab : Nat × Nat) (info : Info K) :
    let w' := w.collided sc inp ab info
    w'.bodies = w.bodies ∧ w'.joints = w.joints ∧ w'.barred = w.barred ∧ w'.shapes = w.shapes ∧ w'.tree = w.tree ∧ w'.ids = w.ids ∧ w'.stamp = w.stamp ∧
      w'.prevDT = w.prevDT ∧ (w'.active = w.active ∨ w'.active = w.active ++ [ab]) := by
  dsimp only [World.collided]
  split
  · exact ⟨rfl, rfl, rfl, rfl, rfl, rfl, rfl, rfl, Or.inr rfl⟩
  · exact ⟨rfl, rfl, rfl, rfl, rfl, rfl, rfl, rfl, Or.inl rfl⟩

/-- A call of the callback of the broad phase leaves everything but the collisions and the identifiers alone; it adds at most one collision, between the two shapes, which are
of different bodies. -/
theorem meet_frame (M : Mth K) (sc : Scene K) (inp : Tick K) (w : World K) (p : Nat × Nat) :
    let w' := w.meet M sc inp p
    w'.bodies = w.bodies ∧ w'.joints = w.joints ∧ w'.barred = w.barred ∧ w'.shapes = w.shapes ∧ w'.tree = w.tree ∧ w'.stamp = w.stamp ∧
      w'.prevDT = w.prevDT ∧ (w'.active = w.active ∨ ∃ q, w'.active = w.active ++ [q] ∧ (q = p ∨ q = (p.2, p.1)) ∧ (sc.figs q.1).body ≠ (sc.figs q.2).body) := by
  dsimp only [World.meet]
  split
  · exact ⟨rfl, rfl, rfl, rfl, rfl, rfl, rfl, Or.inl rfl⟩
  · rename_i hr
    have hb : (sc.figs p.1).body ≠ (sc.figs p.2).body := by
      intro e; apply hr; simp [queryReject, e]
    split
    · exact ⟨rfl, rfl, rfl, rfl, rfl, rfl, rfl, Or.inl rfl⟩
    · rename_i info _
      split
      · exact ⟨rfl, rfl, rfl, rfl, rfl, rfl, rfl, Or.inl rfl⟩
      · obtain ⟨h1, h2, h3, h4, h5, -, h7, h8, h9⟩ := collided_frame sc inp
          { w with ids := fun x y => if (w.tree.pairs.contains p) && (x == p.1 && y == p.2) then info.id else w.ids x y } (info.pair p) info
        refine ⟨h1, h2, h3, h4, h5, h7, h8, ?_⟩
        rcases h9 with h9 | h9
        · exact Or.inl h9
        · refine Or.inr ⟨info.pair p, h9, ?_, ?_⟩
          · unfold Info.pair; split
            · exact Or.inr rfl
            · exact Or.inl rfl
          · unfold Info.pair; split
            · exact hb.symm
            · exact hb

theorem meets_frame (M : Mth K) (sc : Scene K) (inp : Tick K) (calls : List (Nat × Nat)) : ∀ w : World K, (∀ q ∈ w.active, (sc.figs q.1).body ≠ (sc.figs q.2).body) →
    let w' := calls.foldl (World.meet M sc inp) w
    w'.bodies = w.bodies ∧ w'.joints = w.joints ∧ w'.barred = w.barred ∧ w'.shapes = w.shapes ∧ w'.tree = w.tree ∧ w'.stamp = w.stamp ∧
      w'.prevDT = w.prevDT ∧ ∀ q ∈ w'.active, (sc.figs q.1).body ≠ (sc.figs q.2).body := by
  induction calls with
  | nil => intro w h; exact ⟨rfl, rfl, rfl, rfl, rfl, rfl, rfl, h⟩
  | cons p calls ih =>
    intro w h
    obtain ⟨h1, h2, h3, h4, h5, h6, h7, h8⟩ := meet_frame M sc inp w p
    have ha : ∀ q ∈ (w.meet M sc inp p).active, (sc.figs q.1).body ≠ (sc.figs q.2).body := by
      rcases h8 with h8 | ⟨q, h8, -, hq⟩
      · rw [h8]; exact h
      · rw [h8]
        intro r hr
        rcases List.mem_append.1 hr with hr | hr
        · exact h r hr
        · rw [List.mem_singleton.1 hr]; exact hq
    obtain ⟨g1, g2, g3, g4, g5, g6, g7, g8⟩ := ih _ ha
    exact ⟨g1.trans h1, g2.trans h2, g3.trans h3, g4.trans h4, g5.trans h5, g6.trans h6, g7.trans h7, g8⟩

/-- Up to the collisions, a step only moves the bodies. -/
theorem found_frame (M : Mth K) (sc : Scene K) (inp : Tick K) (w : World K) :
    let f := w.found M sc inp
    f.bodies = (SolverState.positions M inp.dyn inp.dt ⟨w.bodies, [], w.joints⟩).bodies ∧ f.joints = w.joints ∧ f.barred = w.barred ∧ f.stamp = w.stamp + 1 ∧
      f.prevDT = w.prevDT ∧ ∀ q ∈ f.active, (sc.figs q.1).body ≠ (sc.figs q.2).body := by
  obtain ⟨h1, h2, h3, -, -, h6, h7, h8⟩ := meets_frame M sc inp (w.calls M sc inp) (w.begun M sc inp) (by intro q hq; exact absurd hq List.not_mem_nil)
  exact ⟨h1, h2, h3, h6, h7, h8⟩

namespace Spec
/-- The collisions a step of the simulation hands to the solver. -/
def collisions (M : Mth K) (sc : Scene K) (inp : Tick K) (w : World K) : List (Link (Arbiter K)) :=
  (((w.found M sc inp).swept sc).solver sc).arbs

/-- Links between bodies that have shapes, never from a body to itself. -/
def BetweenShapes (sc : Scene K) (ls : List (Link (Arbiter K))) : Prop := ∀ l ∈ ls, ∃ x y, l.ia = (sc.figs x).body ∧ l.ib = (sc.figs y).body ∧ l.ia ≠ l.ib

/-- The user leaves the bodies and the joints alone. -/
def HandsOff : WorldOp K → Prop
  | .setBody _ _ => False
  | .setJoints _ _ => False
  | _ => True

/-- The lengths of the steps and the bodies that move in them. -/
def ticks : List (WorldOp K) → List (K × List Nat)
  | [] => []
  | .step inp :: ops => (inp.dt, inp.dyn) :: ticks ops
  | _ :: ops => ticks ops
end Spec

theorem solver_step_same (M : Mth K) (par : Params K) (prevDT : K) (inp : StepIn K) (s t : SolverState K) (hb : s.bodies = t.bodies) (hj : s.joints = t.joints) :
    (s.step M par prevDT inp).bodies = (t.step M par prevDT inp).bodies ∧ (s.step M par prevDT inp).joints = (t.step M par prevDT inp).joints := by
  obtain ⟨sb, sa, sj⟩ := s
  obtain ⟨tb, ta, tj⟩ := t
  subst hb hj
  unfold SolverState.step
  split
  · exact ⟨rfl, rfl⟩
  · exact ⟨rfl, rfl⟩

/-- **C111.** A step of the simulation does to the bodies and the joints what the solver's step of C34 to C40, C70, C85 and C91 does with the collisions found. -/
theorem C111_step (M : Mth K) (sc : Scene K) (inp : Tick K) (w : World K) (s : SolverState K) (hb : s.bodies = w.bodies) (hj : s.joints = w.joints) :
    (w.step M sc inp).bodies = (s.step M sc.par w.prevDT ⟨inp.dt, inp.dyn, collisions M sc inp w⟩).bodies ∧
    (w.step M sc inp).joints = (s.step M sc.par w.prevDT ⟨inp.dt, inp.dyn, collisions M sc inp w⟩).joints ∧
    (w.step M sc inp).prevDT = (if inp.dt = 0 then w.prevDT else inp.dt) ∧ BetweenShapes sc (collisions M sc inp w) := by
  have hl : BetweenShapes sc (collisions M sc inp w) := by
    obtain ⟨-, -, -, -, -, h⟩ := found_frame M sc inp w
    intro l hl
    simp only [collisions, World.solver, World.swept, List.mem_map] at hl
    obtain ⟨q, hq, rfl⟩ := hl
    exact ⟨q.1, q.2, rfl, rfl, h q hq⟩
  obtain ⟨e1, e2⟩ := solver_step_same M sc.par w.prevDT ⟨inp.dt, inp.dyn, collisions M sc inp w⟩ s ⟨w.bodies, [], w.joints⟩ hb hj
  rw [e1, e2]
  by_cases h0 : inp.dt = 0
  · have : w.step M sc inp = w := by unfold World.step; rw [if_pos h0]
    rw [this]
    unfold SolverState.step
    simp only [h0, if_true]
    exact ⟨trivial, trivial, trivial, hl⟩
  · obtain ⟨h1, h2, -, -, -, -⟩ := found_frame M sc inp w
    have e : ((w.found M sc inp).swept sc).solver sc =
        { SolverState.positions M inp.dyn inp.dt ⟨w.bodies, [], w.joints⟩ with arbs := collisions M sc inp w } := by
      simp only [World.solver, World.swept, collisions, h1, h2]
      rfl
    unfold World.step SolverState.step
    simp only [h0, if_false]
    simp only [World.store, e]
    exact ⟨trivial, trivial, trivial, hl⟩

theorem run1_still (M : Mth K) (sc : Scene K) (w w' : World K) (op : WorldOp K) (h : HandsOff op) (hn : ∀ inp, op ≠ .step inp) (hw : w.run1 M sc op = some w') :
    w'.bodies = w.bodies ∧ w'.joints = w.joints ∧ w'.prevDT = w.prevDT := by
  cases op with
  | step inp => exact absurd rfl (hn inp)
  | setBody k b => exact absurd h id
  | setJoints js b => exact absurd h id
  | addDyn i =>
    simp only [World.run1, Option.map_eq_some_iff] at hw
    obtain ⟨t, -, rfl⟩ := hw; exact ⟨rfl, rfl, rfl⟩
  | addStat i =>
    simp only [World.run1, Option.map_eq_some_iff] at hw
    obtain ⟨t, -, rfl⟩ := hw; exact ⟨rfl, rfl, rfl⟩
  | removeDyn i =>
    simp only [World.run1, Option.map_eq_some_iff] at hw
    obtain ⟨t, -, rfl⟩ := hw; exact ⟨rfl, rfl, rfl⟩
  | removeStat i =>
    simp only [World.run1, Option.map_eq_some_iff] at hw
    obtain ⟨t, -, rfl⟩ := hw; exact ⟨rfl, rfl, rfl⟩
  | reindex i =>
    simp only [World.run1, Option.some.injEq] at hw
    subst hw; exact ⟨rfl, rfl, rfl⟩

/-- **C111.** Over any history in which the user leaves bodies and joints alone (shapes may come and go), the simulation does to the bodies and joints what
the solver's steps do, each with the collisions found in it. -/
theorem C111_refines (M : Mth K) (sc : Scene K) (ops : List (WorldOp K)) (ho : ∀ op ∈ ops, HandsOff op) : ∀ (w w' : World K) (s : SolverState K),
    s.bodies = w.bodies → s.joints = w.joints → w.run M sc ops = some w' →
    ∃ ins : List (StepIn K), ins.map (fun i => (i.dt, i.dyn)) = ticks ops ∧ (∀ i ∈ ins, BetweenShapes sc i.arbs) ∧
      w'.bodies = (s.steps M sc.par ins w.prevDT).bodies ∧ w'.joints = (s.steps M sc.par ins w.prevDT).joints := by
  induction ops with
  | nil =>
    intro w w' s hb hj h
    simp only [World.run, Option.some.injEq] at h
    subst h
    exact ⟨[], rfl, by simp, hb.symm, hj.symm⟩
  | cons op ops ih =>
    intro w w' s hb hj h
    have ih := ih fun o h => ho o (List.mem_cons_of_mem _ h)
    simp only [World.run] at h
    by_cases hs : ∃ inp, op = .step inp
    · obtain ⟨inp, rfl⟩ := hs
      simp only [World.run1] at h
      obtain ⟨e1, e2, e3, e4⟩ := C111_step M sc inp w s hb hj
      obtain ⟨ins, i1, i2, i3, i4⟩ := ih (w.step M sc inp) w' _ e1.symm e2.symm h
      refine ⟨⟨inp.dt, inp.dyn, collisions M sc inp w⟩ :: ins, ?_, ?_, ?_, ?_⟩
      · simp only [List.map_cons, ticks, i1]
      · intro i hi
        rcases List.mem_cons.1 hi with rfl | hi
        · exact e4
        · exact i2 i hi
      · rw [e3] at i3; exact i3
      · rw [e3] at i4; exact i4
    · have hn : ∀ inp, op ≠ .step inp := fun inp e => hs ⟨inp, e⟩
      cases h1 : w.run1 M sc op with
      | none => rw [h1] at h; exact absurd h (by simp)
      | some w1 =>
        rw [h1] at h
        obtain ⟨k1, k2, k3⟩ := run1_still M sc w w1 op (ho op List.mem_cons_self) hn h1
        obtain ⟨ins, i1, i2, i3, i4⟩ := ih w1 w' s (by rw [hb, k1]) (by rw [hj, k2]) h
        refine ⟨ins, ?_, i2, ?_, ?_⟩
        · rw [i1]; cases op <;> first | rfl | exact absurd rfl (hn _)
        · rw [k3] at i3; exact i3
        · rw [k3] at i4; exact i4

end

variable {K : Type} [Field K] [LinearOrder K] [IsStrictOrderedRing K]

/-- **C111.** The centre of mass of any number of dynamic bodies, with any shapes and any joints among them, moves through the whole simulation as a single particle does under
gravity, damping and the sum of the forces, whatever touches whatever. -/
theorem C111_particle (M : Mth K) (sc : Scene K) (N : Nat) (hsc : ∀ x, (sc.figs x).body < N) (ops : List (WorldOp K)) (ho : ∀ op ∈ ops, HandsOff op)
    (hd : ∀ t ∈ ticks ops, ∀ k < N, k ∈ t.2) (w w' : World K) (hw : Isolated sc.par.inf N ⟨w.bodies, [], w.joints⟩) (hr : w.run M sc ops = some w') :
    particle N w'.bodies = (ticks ops).foldl (fun q t => q.step (totalMass N w.bodies) (M.pow sc.par.damping t.1) sc.par.gravity t.1) (particle N w.bodies) := by
  obtain ⟨ins, i1, i2, i3, i4⟩ := C111_refines M sc ops ho w w' ⟨w.bodies, [], w.joints⟩ rfl rfl hr
  have hi : ∀ i ∈ ins, (∀ k < N, k ∈ i.dyn) ∧ AmongFree N i.arbs := by
    intro i hi
    refine ⟨hd (i.dt, i.dyn) (by rw [← i1]; exact List.mem_map.2 ⟨i, hi, rfl⟩), ?_⟩
    intro l hl
    obtain ⟨x, y, e1, e2, e3⟩ := i2 i hi l hl
    exact ⟨by rw [e1]; exact hsc x, by rw [e2]; exact hsc y, e3⟩
  obtain ⟨h1, -⟩ := C92_particle M sc.par N ins hi w.prevDT ⟨w.bodies, [], w.joints⟩ hw
  rw [i3, h1, ← i1, List.foldl_map]

/-- **C111.** Without gravity, damping and forces the momentum of the whole simulation never changes, and the centre of mass moves in a straight line. -/
theorem C111_momentum (M : Mth K) (sc : Scene K) (N : Nat) (hsc : ∀ x, (sc.figs x).body < N) (ops : List (WorldOp K)) (ho : ∀ op ∈ ops, HandsOff op)
    (hd : ∀ t ∈ ticks ops, ∀ k < N, k ∈ t.2) (w w' : World K) (hw : Isolated sc.par.inf N ⟨w.bodies, [], w.joints⟩) (hr : w.run M sc ops = some w')
    (hp : ∀ t ∈ ticks ops, M.pow sc.par.damping t.1 = 1) (hg : sc.par.gravity = ⟨0, 0⟩) (hf : totalForce N w.bodies = ⟨0, 0⟩) :
    totalMom N w'.bodies = totalMom N w.bodies ∧
    massPos N w'.bodies = ⟨(massPos N w.bodies).x + ((ticks ops).map (·.1)).sum * (totalMom N w.bodies).x,
      (massPos N w.bodies).y + ((ticks ops).map (·.1)).sum * (totalMom N w.bodies).y⟩ := by
  obtain ⟨ins, i1, i2, i3, i4⟩ := C111_refines M sc ops ho w w' ⟨w.bodies, [], w.joints⟩ rfl rfl hr
  have hi : ∀ i ∈ ins, (∀ k < N, k ∈ i.dyn) ∧ AmongFree N i.arbs := by
    intro i hi
    refine ⟨hd (i.dt, i.dyn) (by rw [← i1]; exact List.mem_map.2 ⟨i, hi, rfl⟩), ?_⟩
    intro l hl
    obtain ⟨x, y, e1, e2, e3⟩ := i2 i hi l hl
    exact ⟨by rw [e1]; exact hsc x, by rw [e2]; exact hsc y, e3⟩
  have hp' : ∀ i ∈ ins, M.pow sc.par.damping i.dt = 1 := by
    intro i hi; exact hp (i.dt, i.dyn) (by rw [← i1]; exact List.mem_map.2 ⟨i, hi, rfl⟩)
  obtain ⟨h1, h2⟩ := C92_uniform M sc.par N ins hi hp' hg w.prevDT ⟨w.bodies, [], w.joints⟩ hw hf
  have e : (ticks ops).map (·.1) = ins.map (·.dt) := by rw [← i1, List.map_map]; rfl
  rw [i3, e]
  exact ⟨h1, h2⟩

/-! ## Example: three balls in a row, the first runs into the second -/

def exMth : Mth ℚ := { gridMth with pow := fun _ _ => 1 }
def exBalls3 : Scene ℚ :=
  ⟨fun i => ⟨.circle ⟨⟨0, 0⟩, ⟨0, 0⟩, 1⟩, i % 3, ⟨0#64, 1#64, 1#64⟩, ⟨1, 1/2, ⟨0, 0⟩⟩, false, BitVec.ofNat 64 i⟩, ⟨100000, 1/10, 1/2, 1, ⟨0, 0⟩, 2⟩, 1/1000, 3,
    fun _ _ => false⟩
def exShot (x v : ℚ) : Body ℚ := { Body.blank with m := 1, mInv := 1, i := 1, iInv := 1, p := ⟨x, 0⟩, v := ⟨v, 0⟩, tr := ⟨1, 0, 0, 1, x, 0⟩ }
def exWorld : World ℚ := World.init (fun k => if k = 0 then exShot 0 1 else if k = 1 then exShot (5/2) 0 else exShot 6 (-1/2))
  fun _ => ⟨.circle ⟨⟨0, 0⟩, ⟨0, 0⟩, 1⟩, ⟨0, 0, 0, 0⟩, 0, ⟨1, 0⟩⟩
def exTick : Tick ℚ := ⟨1/2, [0, 1, 2], [0, 1, 2], fun _ _ => true, fun _ _ => true⟩
def exDo : List (WorldOp ℚ) := [.addDyn 0, .addDyn 1, .addDyn 2, .step exTick, .step exTick]

example : (∀ x, (exBalls3.figs x).body < 3) ∧ (∀ op ∈ exDo, HandsOff op) ∧ (∀ t ∈ ticks exDo, ∀ k < 3, k ∈ t.2) ∧
    Isolated exBalls3.par.inf 3 ⟨exWorld.bodies, [], exWorld.joints⟩ ∧ (∀ t ∈ ticks exDo, exMth.pow exBalls3.par.damping t.1 = 1) ∧
    totalForce 3 exWorld.bodies = ⟨0, 0⟩ ∧ totalMom 3 exWorld.bodies = ⟨1/2, 0⟩ := by
  refine ⟨fun x => Nat.mod_lt x (by norm_num), ?_, ?_, ⟨?_, ?_, ?_, ?_⟩, fun _ _ => rfl, ?_, ?_⟩
  · intro op h
    simp only [exDo, List.mem_cons, List.not_mem_nil, or_false] at h
    rcases h with rfl | rfl | rfl | rfl | rfl <;> trivial
  · decide
  · unfold Free FiniteMass; decide +kernel
  · intro l h; exact absurd h List.not_mem_nil
  · intro l h; exact absurd h List.not_mem_nil
  · decide +kernel
  · decide +kernel
  · decide +kernel

/-- The first ball gives its velocity to the second. -/
example : ((exWorld.run exMth exBalls3 exDo).map fun w => (w.active, (w.bodies 0).v.x, (w.bodies 1).v.x, (w.bodies 2).v.x)) = some ([(0, 1)], 0, 1, -1/2) := by
  decide +kernel

end Cm
