import Verif.Props.World
import Verif.Props.TreeAxes
/-! # C112: the whole simulation is the same elsewhere -/
set_option linter.unusedSectionVars false
set_option linter.unusedSimpArgs false
set_option linter.unusedVariables false

namespace Cm
open Spec BBTree
variable {K : Type} [Field K] [LinearOrder K] [IsStrictOrderedRing K]

namespace Spec
/-- A frame with another origin. -/
def origin (d : V2 K) : Frame K := ⟨⟨1, 0⟩, 0, d, ⟨0, 0⟩⟩
/-- A displaced body. -/
def shiftBody (d : V2 K) (b : Body K) : Body K := { b with p := b.p.add d, tr := { b.tr with tx := b.tr.tx + d.x, ty := b.tr.ty + d.y } }
/-- A displaced box. -/
def shiftBox (d : V2 K) (b : BB K) : BB K := b.offset d
/-- A displaced shape. -/
def shiftShape (d : V2 K) (s : CShape K) : CShape K := { s with cls := (origin d).cls s.cls, bb := s.bb.offset d }
/-- A displaced world: bodies, shapes and trees are elsewhere; joints, collisions and impulses are the same. -/
def shiftWorld (d : V2 K) (w : World K) : World K :=
  { w with bodies := fun k => shiftBody d (w.bodies k), shapes := fun i => shiftShape d (w.shapes i), tree := mapState (shiftBox d) w.tree }
/-- What happens to a displaced world. -/
def shiftOp (d : V2 K) : WorldOp K → WorldOp K
  | .setBody k b => .setBody k (shiftBody d b)
  | op => op

/-- A shape lies within `B` of both origins. -/
def NearBoth (d : V2 K) (B inf : K) (s : CShape K) : Prop := (origin d).Near B inf s.cls ∧ Small (2 * B) s.bb.center

/-- The normal of a groove is a unit vector (groove_joint.go:25-37). -/
def GrooveUnit : Joint K → Prop
  | .groove j => j.grooveN.lengthSq = 1
  | _ => True

/-- Rotations are rotations, normals are unit vectors. -/
def Sane (w : World K) : Prop := (∀ k, RigidTr (w.bodies k).tr) ∧ ∀ l ∈ w.joints, GrooveUnit l.it

/-- There is room for one thing to happen: the shapes concerned are near both origins. What the user sets is sane. -/
def Room1 (M : Mth K) (sc : Scene K) (d : V2 K) (B : K) (w : World K) : WorldOp K → Prop
  | .step inp => (∀ i ∈ inp.order, NearBoth d B sc.par.inf ((w.begun M sc inp).shapes i)) ∧
      ∀ p ∈ w.calls M sc inp, NearBoth d B sc.par.inf ((w.begun M sc inp).shapes p.1) ∧ NearBoth d B sc.par.inf ((w.begun M sc inp).shapes p.2)
  | .addDyn i => NearBoth d B sc.par.inf ((w.recache sc i).shapes i)
  | .addStat i => NearBoth d B sc.par.inf ((w.recache sc i).shapes i)
  | .reindex i => NearBoth d B sc.par.inf ((w.recache sc i).shapes i)
  | .setBody _ b => RigidTr b.tr
  | .setJoints js _ => ∀ l ∈ js, GrooveUnit l.it
  | _ => True

/-- There is room throughout a history. -/
def Room (M : Mth K) (sc : Scene K) (d : V2 K) (B : K) : World K → List (WorldOp K) → Prop
  | _, [] => True
  | w, op :: ops => Room1 M sc d B w op ∧ ∀ w', w.run1 M sc op = some w' → Room M sc d B w' ops
end Spec

section
variable (d : V2 K)

theorem origin_vec (v : V2 K) : (origin d).vec v = v := by simp [Frame.vec, origin]
theorem origin_pt (v : V2 K) : (origin d).pt v = v.add d := by simp [Frame.pt, Frame.vec, origin, V2.add]
theorem origin_turn : (origin d).Turn := by simp [Frame.Turn, origin]
theorem origin_body (b : Body K) : (origin d).body b = shiftBody d b := by
  obtain ⟨m, mi, i, ii, an, w, tq, cog, p, v, f, tr, idle, vb, wb⟩ := b
  simp [Frame.body, shiftBody, origin, Frame.pt, Frame.vec, Frame.tr, V2.add]
theorem origin_contact (c : Contact K) : (origin d).contact c = c := by simp [Frame.contact, origin_vec]
theorem origin_arb (a : Arbiter K) : (origin d).arb a = a := by
  have : (origin d).contact = id := funext (origin_contact d)
  simp [Frame.arb, origin_vec, this]
theorem origin_mat (m : Mat2x2 K) : (origin d).mat m = m := by simp [Frame.mat, origin]
theorem origin_joint (j : Joint K) : (origin d).joint j = j := by cases j <;> simp [Frame.joint, origin_vec, origin_mat]
theorem origin_links (ls : List (Link (Arbiter K))) : ls.map (Frame.link (origin d).arb) = ls := by
  rw [List.map_congr_left (g := id)]; simp
  intro l _; simp [Frame.link, origin_arb]
theorem origin_jointLinks (ls : List (Link (Joint K))) : ls.map (Frame.link (origin d).joint) = ls := by
  rw [List.map_congr_left (g := id)]; simp
  intro l _; simp [Frame.link, origin_joint]
theorem origin_after (t : K) : (origin d).after t = origin d := by simp [Frame.after, origin, V2.add, V2.scale]
theorem shiftBox_sym : BoxSym (shiftBox d) (fun v => v) (fun p => p.add d) := by
  have hA : (Axes.mk [AxisMove.shift d]).Proper := by intro m hm; rw [List.mem_singleton] at hm; subst hm; trivial
  exact axes_sym hA
theorem origin_indifferent {j : Joint K} (h : GrooveUnit j) : Indifferent (origin d) j := by
  cases j <;> simp_all [GrooveUnit, Indifferent, origin]

theorem shiftBody_type (inf : K) (b : Body K) : (shiftBody d b).type inf = b.type inf := rfl

theorem cached_shift {B inf : K} (t : Transform K) (s : Cls K) (hash : BitVec 64) (h : NearBoth d B inf (cachedShape inf t s hash)) :
    cachedShape inf { t with tx := t.tx + d.x, ty := t.ty + d.y } s hash = shiftShape d (cachedShape inf t s hash) := by
  have e : (origin d).tr t = { t with tx := t.tx + d.x, ty := t.ty + d.y } := by simp [Frame.tr, origin]
  have hs := C109_cached (origin_turn d) inf t s hash
  have hb := C109_box (F := origin d) rfl t s hash h.1
  rw [e] at hs hb
  have e1 : ∀ c : CShape K, c = ⟨c.cls, c.bb, c.hash, c.rot⟩ := fun c => rfl
  rw [e1 (cachedShape inf { t with tx := t.tx + d.x, ty := t.ty + d.y } s hash), hs.cls, hs.hash, hs.rot, hb, origin_vec]
  rfl

/-! ## The first half of a step -/

variable {d}

theorem positions_shift {M : Mth K} (hM : M.Lawful) (dyn : List Nat) (dt : K) (w : World K) (h : Sane w) :
    (SolverState.positions M dyn dt ⟨fun k => shiftBody d (w.bodies k), [], w.joints⟩).bodies =
      fun k => shiftBody d ((SolverState.positions M dyn dt ⟨w.bodies, [], w.joints⟩).bodies k) := by
  have hs : SeenFrom (origin d) (fun _ => True) ⟨w.bodies, [], w.joints⟩ ⟨fun k => shiftBody d (w.bodies k), [], w.joints⟩ :=
    ⟨fun k _ => (origin_body d _).symm, rfl, (origin_jointLinks d _).symm⟩
  have hw : WithinDyn (origin d) (fun _ => True) ⟨w.bodies, [], w.joints⟩ :=
    ⟨fun k _ => h.1 k, by intro l hl; exact absurd hl List.not_mem_nil, fun l hl => ⟨trivial, trivial, origin_indifferent d (h.2 l hl)⟩⟩
  obtain ⟨h1, -⟩ := positions_frame hM (F := origin d) (by intro x; simp [origin]) dyn dt (Or.inl rfl) _ _ hs hw
  funext k
  rw [h1.bodies k trivial, origin_after, origin_body]

theorem positions_rigid {M : Mth K} (hM : M.Lawful) (dyn : List Nat) (dt : K) (w : World K) (h : Sane w) (k : Nat) :
    RigidTr ((SolverState.positions M dyn dt ⟨w.bodies, [], w.joints⟩).bodies k).tr := by
  have hs : SeenFrom (origin V2.zero) (fun _ => True) ⟨w.bodies, [], w.joints⟩ ⟨fun k => shiftBody V2.zero (w.bodies k), [], w.joints⟩ :=
    ⟨fun k _ => (origin_body _ _).symm, rfl, (origin_jointLinks _ _).symm⟩
  have hw : WithinDyn (origin V2.zero) (fun _ => True) ⟨w.bodies, [], w.joints⟩ :=
    ⟨fun k _ => h.1 k, by intro l hl; exact absurd hl List.not_mem_nil, fun l hl => ⟨trivial, trivial, origin_indifferent _ (h.2 l hl)⟩⟩
  obtain ⟨-, h1⟩ := positions_frame hM (F := origin V2.zero) (by intro x; simp [origin]) dyn dt (Or.inl rfl) _ _ hs hw
  exact h1.placed k trivial

theorem begun_shift {M : Mth K} (hM : M.Lawful) (sc : Scene K) {B : K} (inp : Tick K) (w : World K) (h : Sane w)
    (hr : ∀ i ∈ inp.order, NearBoth d B sc.par.inf ((w.begun M sc inp).shapes i)) :
    (shiftWorld d w).begun M sc inp = shiftWorld d (w.begun M sc inp) ∧ (shiftWorld d w).calls M sc inp = w.calls M sc inp := by
  have hp := positions_shift (d := d) hM inp.dyn inp.dt w h
  have hs : (shiftWorld d w).reshape sc inp (fun k => shiftBody d ((SolverState.positions M inp.dyn inp.dt ⟨w.bodies, [], w.joints⟩).bodies k)) =
      fun i => shiftShape d (w.reshape sc inp (SolverState.positions M inp.dyn inp.dt ⟨w.bodies, [], w.joints⟩).bodies i) := by
    funext i
    unfold World.reshape
    split
    · rename_i hi
      have := hr i hi
      simp only [World.begun, World.reshape, if_pos hi] at this
      exact cached_shift d _ _ _ this
    · rfl
  have hb : (fun i => ((shiftWorld d w).reshape sc inp (fun k => shiftBody d ((SolverState.positions M inp.dyn inp.dt ⟨w.bodies, [], w.joints⟩).bodies k)) i).bb) =
      fun i => shiftBox d (w.reshape sc inp (SolverState.positions M inp.dyn inp.dt ⟨w.bodies, [], w.joints⟩).bodies i).bb := by
    rw [hs]; rfl
  have hq : (shiftWorld d w).reindexed sc inp (fun k => shiftBody d ((SolverState.positions M inp.dyn inp.dt ⟨w.bodies, [], w.joints⟩).bodies k)) =
      (mapState (shiftBox d) (w.reindexed sc inp (SolverState.positions M inp.dyn inp.dt ⟨w.bodies, [], w.joints⟩).bodies).1,
        (w.reindexed sc inp (SolverState.positions M inp.dyn inp.dt ⟨w.bodies, [], w.joints⟩).bodies).2) := by
    unfold World.reindexed
    rw [hb]
    exact mapState_reindexQuery (shiftBox_sym d) w.tree inp.order _ _
  have hu : (shiftWorld d w).uncleared sc inp (fun k => shiftBody d ((SolverState.positions M inp.dyn inp.dt ⟨w.bodies, [], w.joints⟩).bodies k)) =
      w.uncleared sc inp (SolverState.positions M inp.dyn inp.dt ⟨w.bodies, [], w.joints⟩).bodies := by
    have hb' := fun i => congrFun hb i
    unfold World.uncleared
    have fold : ∀ (order : List Nat) (bbf : Nat → BB K) (vel : Nat → V2 K) (s : BBTree.State K),
        order.foldl (fun s i => (leafUpdateDyn s i (shiftBox d (bbf i)) (vel i)).1) (mapState (shiftBox d) s) =
        mapState (shiftBox d) (order.foldl (fun s i => (leafUpdateDyn s i (bbf i) (vel i)).1) s) := by
      intro order bbf vel
      induction order with
      | nil => intro s; rfl
      | cons i order ih =>
        intro s
        have := mapState_updateDyn (shiftBox_sym d) s i (bbf i) (vel i)
        simp only [List.foldl_cons, this]
        exact ih _
    have e := fold inp.order (fun i => (w.reshape sc inp (SolverState.positions M inp.dyn inp.dt ⟨w.bodies, [], w.joints⟩).bodies i).bb)
      (fun i => ((SolverState.positions M inp.dyn inp.dt ⟨w.bodies, [], w.joints⟩).bodies (sc.figs i).body).v) w.tree
    simp only [hb']
    have e' := congrArg BBTree.State.pairs e
    exact e'
  constructor
  · unfold World.begun
    have e0 : (SolverState.positions M inp.dyn inp.dt ⟨(shiftWorld d w).bodies, [], (shiftWorld d w).joints⟩).bodies =
        fun k => shiftBody d ((SolverState.positions M inp.dyn inp.dt ⟨w.bodies, [], w.joints⟩).bodies k) := hp
    simp only [e0, hs, hq, hu]
    rfl
  · unfold World.calls
    have e0 : (SolverState.positions M inp.dyn inp.dt ⟨(shiftWorld d w).bodies, [], (shiftWorld d w).joints⟩).bodies =
        fun k => shiftBody d ((SolverState.positions M inp.dyn inp.dt ⟨w.bodies, [], w.joints⟩).bodies k) := hp
    rw [e0, hq]

theorem pushed_contact (F : Frame K) (c : Pushed K) : (F.pushed c).contact = F.absolute c.contact := rfl

theorem updated_shift (sc : Scene K) (inp : Tick K) (w : World K) (ab : Nat × Nat) (info : Info K) :
    (shiftWorld d w).updated sc inp ab ((origin d).info info) = w.updated sc inp ab info := by
  have e := C109_arbiter (origin_turn d) (heldArb w.cache ab.1 ab.2) (info.contacts.map Pushed.contact) info.n (w.bodies (sc.figs ab.1).body).p
    (w.bodies (sc.figs ab.2).body).p (sc.figs ab.1).surface (sc.figs ab.2).surface (sc.swap ab.1 ab.2)
  have hc : ((origin d).info info).contacts.map Pushed.contact = (info.contacts.map Pushed.contact).map (origin d).absolute := by
    simp only [Frame.info, List.map_map]; rfl
  have hsf : ∀ s : Surface K, (origin d).surface s = s := by intro s; simp [Frame.surface, origin_vec]
  simp only [origin_arb, hsf, origin_pt] at e
  unfold World.updated
  dsimp only
  rw [hc]
  have hn : ((origin d).info info).n = (origin d).vec info.n := rfl
  have hb : ∀ k, ((shiftWorld d w).bodies k).p = (w.bodies k).p.add d := fun k => rfl
  have hk : (shiftWorld d w).cache = w.cache := rfl
  rw [hn, hb, hb, hk, e]

theorem meet_shift {M : Mth K} (hM : M.Lawful) (sc : Scene K) {B : K} (inp : Tick K) (w : World K) (p : Nat × Nat)
    (h1 : NearBoth d B sc.par.inf (w.shapes p.1)) (h2 : NearBoth d B sc.par.inf (w.shapes p.2)) :
    (shiftWorld d w).meet M sc inp p = shiftWorld d (w.meet M sc inp p) := by
  have hq : queryReject (fun x => (sc.figs x).body) (fun x => (sc.figs x).filter) (fun x => ((shiftWorld d w).shapes x).bb) (shiftWorld d w).barred p.1 p.2 =
      queryReject (fun x => (sc.figs x).body) (fun x => (sc.figs x).filter) (fun x => (w.shapes x).bb) w.barred p.1 p.2 := by
    have hi : ∀ (x y : BB K) (v : V2 K), (x.offset v).intersects (y.offset v) = x.intersects y := by
      intro x y v; simp only [BB.intersects, BB.offset, add_le_add_iff_right]
    simp only [queryReject, shiftWorld, shiftShape, hi]
    rfl
  have hk : (shiftWorld d w).tree.pairs = w.tree.pairs := rfl
  have hi : (shiftWorld d w).ids = w.ids := rfl
  have ax : ((shiftWorld d w).shapes p.1).bb.center.sub ((shiftWorld d w).shapes p.2).bb.center = (w.shapes p.1).bb.center.sub (w.shapes p.2).bb.center := by
    simp only [shiftWorld, shiftShape, BB.offset, BB.center, V2.lerp, V2.sub, V2.add, V2.scale]; ext <;> simp only <;> ring
  have hm : Small (4 * B) ((w.shapes p.1).bb.center.sub (w.shapes p.2).bb.center) := by
    have := small_sub h1.2 h2.2
    rwa [show 2 * B + 2 * B = 4 * B by ring] at this
  have hc : ∀ id, collide M sc.par.inf sc.tiny ((shiftWorld d w).shapes p.1) ((shiftWorld d w).shapes p.2) id =
      (collide M sc.par.inf sc.tiny (w.shapes p.1) (w.shapes p.2) id).map (origin d).info := by
    intro id
    refine C109_collide_partial (origin_turn d) hM sc.tiny (show (origin d).Sees (w.shapes p.1) (shiftShape d (w.shapes p.1)) from ⟨rfl, rfl, (origin_vec d _).symm⟩) (show (origin d).Sees (w.shapes p.2) (shiftShape d (w.shapes p.2)) from ⟨rfl, rfl, (origin_vec d _).symm⟩) h1.1 h2.1 id (fun _ => ⟨?_, hm, ?_⟩)
      (fun _ _ _ _ _ => rfl)
    · rw [origin_vec]; exact ax
    · show Small (4 * B) (((shiftWorld d w).shapes p.1).bb.center.sub ((shiftWorld d w).shapes p.2).bb.center)
      rw [ax]; exact hm
  unfold World.meet
  rw [hq]
  split
  · rfl
  · dsimp only
    rw [hk, hi, hc]
    cases collide M sc.par.inf sc.tiny (w.shapes p.1) (w.shapes p.2) (if w.tree.pairs.contains p = true then w.ids p.1 p.2 else 0) with
    | none => rfl
    | some info =>
      dsimp only [Option.map_some]
      have he : ((origin d).info info).contacts.isEmpty = info.contacts.isEmpty := by simp [Frame.info]
      have hid : ((origin d).info info).id = info.id := rfl
      have hpr : ((origin d).info info).pair p = info.pair p := rfl
      rw [he, hid, hpr]
      split
      · rfl
      · generalize hw1 : ({ w with ids := fun x y => if (w.tree.pairs.contains p && (x == p.1 && y == p.2)) = true then info.id else w.ids x y } : World K) = w1
        have hw2 : ({ shiftWorld d w with ids := fun x y => if (w.tree.pairs.contains p && (x == p.1 && y == p.2)) = true then info.id else w.ids x y } : World K) = shiftWorld d w1 := by
          rw [← hw1]; rfl
        rw [hw2]
        unfold World.collided
        dsimp only
        rw [updated_shift]
        have hps : (shiftWorld d w1).passes sc inp (info.pair p) (w1.updated sc inp (info.pair p) info) ↔ w1.passes sc inp (info.pair p) (w1.updated sc inp (info.pair p) info) := Iff.rfl
        by_cases hb : w1.passes sc inp (info.pair p) (w1.updated sc inp (info.pair p) info)
        · rw [if_pos (hps.2 hb), if_pos hb]; rfl
        · rw [if_neg (fun h => hb (hps.1 h)), if_neg hb]; rfl

theorem meets_shift {M : Mth K} (hM : M.Lawful) (sc : Scene K) {B : K} (inp : Tick K) (calls : List (Nat × Nat)) : ∀ w : World K,
    (∀ p ∈ calls, NearBoth d B sc.par.inf (w.shapes p.1) ∧ NearBoth d B sc.par.inf (w.shapes p.2)) →
    calls.foldl (World.meet M sc inp) (shiftWorld d w) = shiftWorld d (calls.foldl (World.meet M sc inp) w) := by
  induction calls with
  | nil => intro w _; rfl
  | cons p calls ih =>
    intro w h
    obtain ⟨h1, h2⟩ := h p List.mem_cons_self
    simp only [List.foldl_cons]
    rw [meet_shift hM sc inp w p h1 h2]
    refine ih _ fun q hq => ?_
    obtain ⟨-, -, -, e, -⟩ := meet_frame M sc inp w p
    rw [e]
    exact h q (List.mem_cons_of_mem _ hq)

/-- **C112.** The first half of a step finds the same collisions elsewhere. -/
theorem found_shift {M : Mth K} (hM : M.Lawful) (sc : Scene K) {B : K} (inp : Tick K) (w : World K) (h : Sane w) (hr : Room1 M sc d B w (.step inp)) :
    (shiftWorld d w).found M sc inp = shiftWorld d (w.found M sc inp) := by
  obtain ⟨e1, e2⟩ := begun_shift hM sc inp w h hr.1
  unfold World.found
  rw [e1, e2]
  exact meets_shift hM sc inp _ _ hr.2

theorem step_shift {M : Mth K} (hM : M.Lawful) (sc : Scene K) {B : K} (inp : Tick K) (w : World K) (h : Sane w) (hr : Room1 M sc d B w (.step inp)) :
    (shiftWorld d w).step M sc inp = shiftWorld d (w.step M sc inp) ∧ Sane (w.step M sc inp) := by
  unfold World.step
  by_cases h0 : inp.dt = 0
  · rw [if_pos h0, if_pos h0]; exact ⟨rfl, h⟩
  rw [if_neg h0, if_neg h0]
  dsimp only
  rw [found_shift hM sc inp w h hr]
  obtain ⟨f1, f2, -⟩ := found_frame M sc inp w
  have hf : Sane (w.found M sc inp) := by
    refine ⟨fun k => ?_, by rw [f2]; exact h.2⟩
    rw [f1]; exact positions_rigid hM inp.dyn inp.dt w h k
  generalize w.found M sc inp = f at hf ⊢
  have hsw : (shiftWorld d f).swept sc = shiftWorld d (f.swept sc) := rfl
  have hf' : Sane (f.swept sc) := hf
  rw [hsw]
  generalize f.swept sc = g at hf' ⊢
  have hs : SeenFrom (origin d) (fun _ => True) (g.solver sc) ((shiftWorld d g).solver sc) :=
    ⟨fun k _ => (origin_body d _).symm, (origin_links d _).symm, (origin_jointLinks d _).symm⟩
  have hw : WithinDyn (origin d) (fun _ => True) (g.solver sc) :=
    ⟨fun k _ => hf'.1 k, fun _ _ => ⟨trivial, trivial⟩, fun l hl => ⟨trivial, trivial, origin_indifferent d (hf'.2 l hl)⟩⟩
  have key := C91_solve (origin_turn d) M sc.par.inf sc.par.slop sc.par.cbias sc.par.damping sc.par.gravity inp.dyn w.prevDT inp.dt sc.par.iterations (Or.inl rfl) _ _ hs hw
  rw [origin_vec] at key
  have hpd : (shiftWorld d w).prevDT = w.prevDT := rfl
  rw [hpd]
  generalize SolverState.solve M sc.par.inf sc.par.slop sc.par.cbias sc.par.damping sc.par.gravity inp.dyn w.prevDT inp.dt sc.par.iterations (g.solver sc) = r at key ⊢
  generalize SolverState.solve M sc.par.inf sc.par.slop sc.par.cbias sc.par.damping sc.par.gravity inp.dyn w.prevDT inp.dt sc.par.iterations ((shiftWorld d g).solver sc) = r' at key ⊢
  obtain ⟨⟨k1, k2, k3⟩, ⟨l1, -, l3⟩⟩ := key
  rw [origin_links] at k2
  rw [origin_jointLinks] at k3
  have k1' : r'.bodies = fun k => shiftBody d (r.bodies k) := by funext k; rw [k1 k trivial, origin_body]
  refine ⟨?_, ?_⟩
  · simp only [World.store, k1', k2, k3]
    rfl
  · refine ⟨fun k => l1 k trivial, fun l hl => ?_⟩
    have := (l3 l hl).2.2
    cases hj : l.it <;> simp_all [GrooveUnit, Indifferent]

theorem recache_shift {sc : Scene K} {B : K} {w : World K} {i : Nat} (h : NearBoth d B sc.par.inf ((w.recache sc i).shapes i)) :
    (shiftWorld d w).recache sc i = shiftWorld d (w.recache sc i) := by
  have e : cachedShape sc.par.inf ((shiftWorld d w).bodies (sc.figs i).body).tr (sc.figs i).cls (sc.figs i).hash =
      shiftShape d (cachedShape sc.par.inf (w.bodies (sc.figs i).body).tr (sc.figs i).cls (sc.figs i).hash) := by
    refine cached_shift d (B := B) _ _ _ ?_
    have := h
    simp only [World.recache, if_true] at this
    exact this
  unfold World.recache
  rw [e]
  have : (fun j => if j = i then shiftShape d (cachedShape sc.par.inf (w.bodies (sc.figs i).body).tr (sc.figs i).cls (sc.figs i).hash) else (shiftWorld d w).shapes j) =
      fun j => shiftShape d (if j = i then cachedShape sc.par.inf (w.bodies (sc.figs i).body).tr (sc.figs i).cls (sc.figs i).hash else w.shapes j) := by
    funext j; split <;> rfl
  rw [this]; rfl

theorem run1_shift {M : Mth K} (hM : M.Lawful) (sc : Scene K) {B : K} (w : World K) (h : Sane w) (op : WorldOp K) (hr : Room1 M sc d B w op) :
    (shiftWorld d w).run1 M sc (shiftOp d op) = (w.run1 M sc op).map (shiftWorld d) ∧ ∀ w', w.run1 M sc op = some w' → Sane w' := by
  have S := shiftBox_sym d
  cases op with
  | step inp =>
    obtain ⟨h1, h2⟩ := step_shift hM sc inp w h hr
    refine ⟨by simp only [World.run1, shiftOp, h1, Option.map_some], ?_⟩
    intro w' hw; simp only [World.run1, Option.some.injEq] at hw; rw [← hw]; exact h2
  | addDyn i =>
    simp only [World.run1, shiftOp, recache_shift hr]
    have hw : Sane (w.recache sc i) := h
    generalize w.recache sc i = w1 at hw ⊢
    have := mapState_insertDyn S w1.tree i (w1.shapes i).bb (w1.bodies (sc.figs i).body).v
    constructor
    · show (BBTree.insertDyn (mapState (shiftBox d) w1.tree) i (shiftBox d (w1.shapes i).bb) (w1.bodies (sc.figs i).body).v).map _ = _
      rw [this, Option.map_map, Option.map_map]; rfl
    · intro w' hw'
      simp only [Option.map_eq_some_iff] at hw'
      obtain ⟨t, -, rfl⟩ := hw'; exact hw
  | addStat i =>
    simp only [World.run1, shiftOp, recache_shift hr]
    have hw : Sane (w.recache sc i) := h
    generalize w.recache sc i = w1 at hw ⊢
    have := mapState_insertStat S w1.tree i (w1.shapes i).bb
    constructor
    · show (BBTree.insertStat (mapState (shiftBox d) w1.tree) i (shiftBox d (w1.shapes i).bb)).map _ = _
      rw [this, Option.map_map, Option.map_map]; rfl
    · intro w' hw'
      simp only [Option.map_eq_some_iff] at hw'
      obtain ⟨t, -, rfl⟩ := hw'; exact hw
  | removeDyn i =>
    simp only [World.run1, shiftOp]
    constructor
    · show (BBTree.removeDyn (mapState (shiftBox d) w.tree) i).map _ = _
      rw [mapState_removeDyn S, Option.map_map, Option.map_map]; rfl
    · intro w' hw'
      simp only [Option.map_eq_some_iff] at hw'
      obtain ⟨t, -, rfl⟩ := hw'; exact h
  | removeStat i =>
    simp only [World.run1, shiftOp]
    constructor
    · show (BBTree.removeStat (mapState (shiftBox d) w.tree) i).map _ = _
      rw [mapState_removeStat S, Option.map_map, Option.map_map]; rfl
    · intro w' hw'
      simp only [Option.map_eq_some_iff] at hw'
      obtain ⟨t, -, rfl⟩ := hw'; exact h
  | reindex i =>
    simp only [World.run1, shiftOp, recache_shift hr]
    have hw : Sane (w.recache sc i) := h
    generalize w.recache sc i = w1 at hw ⊢
    have e1 := mapState_updateDyn S w1.tree i (w1.shapes i).bb (w1.bodies (sc.figs i).body).v
    have e2 := mapState_reindexDyn S w1.tree i (w1.shapes i).bb (w1.bodies (sc.figs i).body).v
    have e1' : leafUpdateDyn (shiftWorld d w1).tree i ((shiftWorld d w1).shapes i).bb ((shiftWorld d w1).bodies (sc.figs i).body).v = _ := e1
    have e2' : BBTree.reindexDyn (shiftWorld d w1).tree i ((shiftWorld d w1).shapes i).bb ((shiftWorld d w1).bodies (sc.figs i).body).v = _ := e2
    have e3' : ∀ t : BBTree.State K, leafUpdateStat (mapState (shiftBox d) t) i ((shiftWorld d w1).shapes i).bb = _ := fun t => mapState_updateStat S t i (w1.shapes i).bb
    have e4' : ∀ t : BBTree.State K, BBTree.reindexStat (mapState (shiftBox d) t) i ((shiftWorld d w1).shapes i).bb = _ := fun t => mapState_reindexStat S t i (w1.shapes i).bb
    constructor
    · rw [e1', e2', e3', e4']
      rfl
    · intro w' hw'
      simp only [Option.some.injEq] at hw'
      rw [← hw']; exact hw
  | setBody k b =>
    simp only [World.run1, shiftOp, Option.map_some]
    constructor
    · congr 1
      have : (fun j => if j = k then shiftBody d b else (shiftWorld d w).bodies j) = fun j => shiftBody d (if j = k then b else w.bodies j) := by
        funext j; split <;> rfl
      rw [this]; rfl
    · intro w' hw'
      simp only [Option.some.injEq] at hw'
      rw [← hw']
      refine ⟨fun j => ?_, h.2⟩
      show RigidTr (if j = k then b else w.bodies j).tr
      split
      · exact hr
      · exact h.1 j
  | setJoints js barred =>
    simp only [World.run1, shiftOp, Option.map_some]
    refine ⟨rfl, ?_⟩
    intro w' hw'
    simp only [Option.some.injEq] at hw'
    rw [← hw']; exact ⟨h.1, hr⟩
end

/-- **C112.** The whole simulation is the same elsewhere: over any history, a displaced world goes through the displaced states of the first, with the same
collisions in the same order, the same impulses, and the same crashes. -/
theorem C112_run {M : Mth K} (hM : M.Lawful) (sc : Scene K) (d : V2 K) (B : K) (ops : List (WorldOp K)) : ∀ w : World K, Sane w → Room M sc d B w ops →
    (shiftWorld d w).run M sc (ops.map (shiftOp d)) = (w.run M sc ops).map (shiftWorld d) := by
  induction ops with
  | nil => intro w _ _; rfl
  | cons op ops ih =>
    intro w h hr
    obtain ⟨e, hs⟩ := run1_shift hM sc w h op hr.1
    simp only [List.map_cons, World.run, e]
    cases h1 : w.run1 M sc op with
    | none => rfl
    | some w1 => exact ih w1 (hs w1 h1) (hr.2 w1 h1)

/-- **C112.** In terms of what can be seen: positions differ by the displacement, angles, velocities and forces are equal, the collisions are those of the
same pairs in the same order, and each arbiter, with its contacts and accumulated impulses, is the same. -/
theorem C112_seen {M : Mth K} (hM : M.Lawful) (sc : Scene K) (d : V2 K) (B : K) (ops : List (WorldOp K)) (w w' : World K) (h : Sane w)
    (hr : Room M sc d B w ops) (e : w.run M sc ops = some w') : ∃ u, (shiftWorld d w).run M sc (ops.map (shiftOp d)) = some u ∧
      (∀ k, (u.bodies k).p = (w'.bodies k).p.add d ∧ (u.bodies k).angle = (w'.bodies k).angle ∧ (u.bodies k).v = (w'.bodies k).v ∧
        (u.bodies k).w = (w'.bodies k).w ∧ (u.bodies k).force = (w'.bodies k).force) ∧
      u.active = w'.active ∧ u.cache = w'.cache ∧ u.joints = w'.joints ∧ u.tree.pairs = w'.tree.pairs := by
  have := C112_run hM sc d B ops w h hr
  rw [e] at this
  exact ⟨_, this, fun k => ⟨rfl, rfl, rfl, rfl, rfl⟩, rfl, rfl, rfl, rfl⟩

/-! ## Example: two balls, one of them shot at the other, displaced by (3, 4) -/

noncomputable def exSpots : Scene ℝ :=
  ⟨fun i => ⟨.circle ⟨⟨0, 0⟩, ⟨0, 0⟩, 1⟩, i % 2, ⟨0#64, 1#64, 1#64⟩, ⟨1, 1/2, ⟨0, 0⟩⟩, false, BitVec.ofNat 64 i⟩, ⟨100000, 1/10, 1/2, 1, ⟨0, 0⟩, 2⟩, 1/1000, 3,
    fun _ _ => false⟩
noncomputable def exSpot (x v : ℝ) : Body ℝ := { Body.blank with m := 1, mInv := 1, i := 1, iInv := 1, p := ⟨x, 0⟩, v := ⟨v, 0⟩, tr := ⟨1, 0, 0, 1, x, 0⟩ }
noncomputable def exSpotWorld : World ℝ :=
  World.init (fun k => if k = 0 then exSpot 0 1 else exSpot (5/2) 0) fun _ => cachedShape 100000 ⟨1, 0, 0, 1, 0, 0⟩ (.circle ⟨⟨0, 0⟩, ⟨0, 0⟩, 1⟩) 0
noncomputable def exSpotDo : List (WorldOp ℝ) :=
  [.addDyn 0, .addDyn 1, .step ⟨1, [0, 1], [0, 1], fun _ _ => true, fun _ _ => true⟩, .removeDyn 0, .setBody 0 (exSpot 7 1)]

theorem exSpot_near (t : Transform ℝ) (hash : BitVec 64) (hx : |t.tx| ≤ 10) (hy : |t.ty| ≤ 10) :
    NearBoth ⟨3, 4⟩ 20 100000 (cachedShape 100000 t (.circle ⟨⟨0, 0⟩, ⟨0, 0⟩, 1⟩) hash) := by
  rw [abs_le] at hx hy
  obtain ⟨hx1, hx2⟩ := hx
  obtain ⟨hy1, hy2⟩ := hy
  refine ⟨⟨?_, ?_, ?_, by norm_num⟩, ?_⟩
  · simp [cachedShape, Cls.cache, corners]
  · intro v hv
    simp only [cachedShape, Cls.cache, Circle.cache, corners, List.mem_cons, List.not_mem_nil, or_false] at hv
    subst hv
    simp only [Transform.apply, abs_le]
    refine ⟨⟨?_, ?_⟩, ?_, ?_⟩ <;> linarith
  · intro v hv
    simp only [cachedShape, Cls.cache, Circle.cache, corners, Frame.cls, origin_pt, List.mem_cons, List.not_mem_nil, or_false] at hv
    subst hv
    simp only [Transform.apply, V2.add, abs_le]
    refine ⟨⟨?_, ?_⟩, ?_, ?_⟩ <;> linarith
  · simp only [Small, cachedShape, Cls.cache, Circle.cache, BB.forCircle, BB.forExtents, Transform.apply, BB.center, V2.lerp, V2.add, V2.scale, abs_le]
    refine ⟨⟨?_, ?_⟩, ?_, ?_⟩ <;> linarith

example : Sane exSpotWorld ∧ Room realMth exSpots ⟨3, 4⟩ 20 exSpotWorld exSpotDo := by
  have hr : ∀ x v : ℝ, RigidTr (exSpot x v).tr := by intro x v; simp [RigidTr, exSpot]
  refine ⟨⟨fun k => ?_, by intro l h; exact absurd h List.not_mem_nil⟩, ?_⟩
  · show RigidTr (if k = 0 then exSpot 0 1 else exSpot (5/2) 0).tr
    split <;> exact hr _ _
  · have hb : ∀ k, |(exSpotWorld.bodies k).tr.tx| ≤ 10 ∧ |(exSpotWorld.bodies k).tr.ty| ≤ 10 := by
      intro k
      show |(if k = 0 then exSpot 0 1 else exSpot (5/2) 0).tr.tx| ≤ 10 ∧ |(if k = 0 then exSpot 0 1 else exSpot (5/2) 0).tr.ty| ≤ 10
      split <;> norm_num [exSpot, abs_le]
    refine ⟨?_, fun w1 e1 => ⟨?_, fun w2 e2 => ⟨?_, fun w3 e3 => ⟨trivial, fun w4 e4 => ⟨hr _ _, fun _ _ => trivial⟩⟩⟩⟩⟩
    · show NearBoth _ _ _ (if 0 = 0 then cachedShape _ _ _ _ else _)
      rw [if_pos rfl]
      exact exSpot_near _ _ (hb _).1 (hb _).2
    · have b1 : w1.bodies = exSpotWorld.bodies := by
        simp only [World.run1, Option.map_eq_some_iff] at e1
        obtain ⟨t, -, rfl⟩ := e1; rfl
      show NearBoth _ _ _ (if 1 = 1 then cachedShape _ _ _ _ else _)
      rw [if_pos rfl, b1]
      exact exSpot_near _ _ (hb _).1 (hb _).2
    · have near : ∀ i, NearBoth ⟨3, 4⟩ 20 exSpots.par.inf ((w2.begun realMth exSpots ⟨1, [0, 1], [0, 1], fun _ _ => true, fun _ _ => true⟩).shapes i) := by
        have b2 : w2.bodies = exSpotWorld.bodies ∧ ∀ i, i ∉ [0, 1] → w2.shapes i = exSpotWorld.shapes i := by
          simp only [World.run1, Option.map_eq_some_iff] at e1 e2
          obtain ⟨t, -, rfl⟩ := e1
          obtain ⟨t, -, rfl⟩ := e2
          refine ⟨rfl, fun i hi => ?_⟩
          simp only [List.mem_cons, List.not_mem_nil, or_false, not_or] at hi
          simp only [World.recache, if_neg hi.1, if_neg hi.2]
        intro i
        simp only [World.begun, World.reshape]
        split
        · have hm : ∀ k, |((SolverState.positions realMth [0, 1] 1 ⟨w2.bodies, [], w2.joints⟩).bodies k).tr.tx| ≤ 10 ∧
              |((SolverState.positions realMth [0, 1] 1 ⟨w2.bodies, [], w2.joints⟩).bodies k).tr.ty| ≤ 10 := by
            intro k
            simp only [SolverState.positions, b2.1]
            split
            · show |((if k = 0 then exSpot 0 1 else exSpot (5/2) 0).updatePosition realMth 1).tr.tx| ≤ 10 ∧
                |((if k = 0 then exSpot 0 1 else exSpot (5/2) 0).updatePosition realMth 1).tr.ty| ≤ 10
              split <;> norm_num [exSpot, Body.updatePosition, Body.setTransform, Body.mkTransform, Transform.transpose, realMth, Body.blank, V2.add, V2.scale, V2.zero, V2.rotate, V2.sub, V2.neg, abs_le]
            · exact hb _
          exact exSpot_near _ _ (hm _).1 (hm _).2
        · rename_i hi
          rw [b2.2 i hi]
          exact exSpot_near _ _ (by norm_num) (by norm_num)
      exact ⟨fun i _ => near i, fun p _ => ⟨near _, near _⟩⟩

end Cm
