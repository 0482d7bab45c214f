import Verif.Model.Step
import Verif.Model.Detect
import Verif.Model.ContactSet
/-! # The whole simulation

`Space.Step` with everything it does to numbers, over many steps: motion, caching of the shapes, the broad phase, the narrow phase, the collisions kept
from one step to the next, and the solver. `Model/Step.lean` is given the collisions of a step; here they are found.

Left out: sleeping (`SleepTimeThreshold` is `infinity`, as `NewSpace` sets it), and what callbacks do besides accepting or rejecting a collision. The sets
of shapes and of arbiters are lists (C01); memory of contacts and arbiters is in `Model/ContactBuffer.lean` and `Model/Space.lean`. -/
namespace Cm
variable {K : Type} [Zero K] [One K] [Add K] [Sub K] [Mul K] [Div K] [Neg K] [NatCast K] [LinearOrder K]

/-- A shape as made and attached to a body: the fields of shape.go:17-53 which do not change here. -/
structure Fixture (K : Type) where
  cls : Cls K
  body : Nat
  filter : ShapeFilter
  surface : Surface K
  sensor : Bool
  hash : BitVec 64

/-- An arbiter in `cachedArbiters`: arbiter.go:16-31. -/
structure Held (K : Type) where
  a : Nat
  b : Nat
  stamp : Nat
  arb : Arbiter K

/-- The state of the simulation: space.go:17-85. `shapes` holds the fields of the shapes computed by `CacheBB`; `ids` the `collisionId` of the cached
pairs of the broad phase (bb_tree.go:24-28); `active` is `Arbiters`, by the shapes; `barred` says between which bodies there is a joint with
`collideBodies` false (`QueryRejectConstraints`, space.go:1149-1158); `prevDT` is `currDT`. -/
structure World (K : Type) where
  bodies : Nat → Body K
  joints : List (Link (Joint K))
  barred : Nat → Nat → Bool
  shapes : Nat → CShape K
  tree : BBTree.State K
  ids : Nat → Nat → Nat
  cache : List (Held K)
  active : List (Nat × Nat)
  stamp : Nat
  prevDT : K

/-- What does not change: the shapes by number, the fields of `Space` the step reads, `CollisionPersistence`, and `arb.swapped` (arbiter.go:237-240),
which depends on the types of the two shapes. -/
structure Scene (K : Type) where
  figs : Nat → Fixture K
  par : Params K
  tiny : K
  persistence : Nat
  swap : Nat → Nat → Bool

/-- What a step is given: its length, `DynamicBodies`, the order in which the set of the shapes in the dynamic index is enumerated, and the answers of the
callbacks `BeginFunc` and `PreSolveFunc`. -/
structure Tick (K : Type) where
  dt : K
  dyn : List Nat
  order : List Nat
  begins : Nat → Nat → Bool
  pre : Nat → Nat → Bool

/-- `arbiterSetEql`: space.go:1258-1263. -/
def Held.is (h : Held K) (a b : Nat) : Bool := (a == h.a && b == h.b) || (b == h.a && a == h.b)

/-- `Arbiter.Init`: arbiter.go:34-54. -/
def Arbiter.blank : Arbiter K := ⟨0, 0, V2.zero, V2.zero, [], .first, false⟩

/-- A contact as `PushContact` writes it (collision.go:91-104, everything.go:88-99). What the slot held before is left there by the code, and is overwritten
by `Update` and `PreStep`; here it is zero. -/
def Pushed.contact (c : Pushed K) : Contact K := ⟨c.p1, c.p2, 0, 0, 0, 0, 0, 0, 0, c.hash.toNat⟩

/-- Replace the arbiter for two shapes, or add one: space.go:1089-1096. -/
def putHeld (h : Held K) (cache : List (Held K)) : List (Held K) :=
  if cache.any (fun o => o.is h.a h.b) then cache.map fun o => if o.is h.a h.b then h else o else h :: cache

/-- The arbiter for two shapes, or a new one: space.go:1089-1096. -/
def heldArb (cache : List (Held K)) (a b : Nat) : Arbiter K :=
  match cache.find? (fun o => o.is a b) with
  | some h => h.arb
  | none => Arbiter.blank

/-- The two shapes of a collision, ordered by their kinds: collision.go:501-520. -/
def Info.pair (info : Info K) (p : Nat × Nat) : Nat × Nat := if info.swapped then (p.2, p.1) else p

/-- space.go:1089-1101: the arbiter of a collision that was found between `ab`, updated, and set to be ignored if `BeginFunc` rejects it. -/
def World.updated (sc : Scene K) (inp : Tick K) (w : World K) (ab : Nat × Nat) (info : Info K) : Arbiter K :=
  let fa := sc.figs ab.1
  let fb := sc.figs ab.2
  let arb := (heldArb w.cache ab.1 ab.2).update (info.contacts.map Pushed.contact) info.n (w.bodies fa.body).p (w.bodies fb.body).p fa.surface fb.surface
    (sc.swap ab.1 ab.2)
  if arb.state = .first ∧ inp.begins ab.1 ab.2 = false then { arb with state := .ignore } else arb

/-- The condition space.go:1104-1113. -/
def World.passes (sc : Scene K) (inp : Tick K) (w : World K) (ab : Nat × Nat) (arb : Arbiter K) : Prop :=
  arb.state ≠ .ignore ∧ inp.pre ab.1 ab.2 = true ∧ ¬((sc.figs ab.1).sensor = true ∨ (sc.figs ab.2).sensor = true) ∧
    ¬((w.bodies (sc.figs ab.1).body).m = sc.par.inf ∧ (w.bodies (sc.figs ab.2).body).m = sc.par.inf)

instance (sc : Scene K) (inp : Tick K) (w : World K) (ab : Nat × Nat) (arb : Arbiter K) : Decidable (w.passes sc inp ab arb) := by
  unfold World.passes; infer_instance

/-- space.go:1116-1125: an arbiter that is not passed to the solver. -/
def Arbiter.unused (arb : Arbiter K) : Arbiter K := { arb with contacts := [], state := if arb.state ≠ .ignore then .normal else arb.state }

/-- space.go:1087-1128, for a collision that was found between `ab`: pass its arbiter to the solver or not. -/
def World.collided (sc : Scene K) (inp : Tick K) (w : World K) (ab : Nat × Nat) (info : Info K) : World K :=
  let arb := w.updated sc inp ab info
  if w.passes sc inp ab arb then { w with cache := putHeld ⟨ab.1, ab.2, w.stamp, arb⟩ w.cache, active := w.active ++ [ab] }
  else { w with cache := putHeld ⟨ab.1, ab.2, w.stamp, arb.unused⟩ w.cache }

/-- One call of `SpaceCollideShapesFunc`: space.go:1068-1131. The `collisionId` of a pair the broad phase keeps is read and written back
(bb_tree.go:455); other calls have none (bb_tree.go:474). A panic in `Collide` (`none`, see `C98_no_panic`) leaves all as it is. -/
def World.meet (M : Mth K) (sc : Scene K) (inp : Tick K) (w : World K) (p : Nat × Nat) : World K :=
  if queryReject (fun x => (sc.figs x).body) (fun x => (sc.figs x).filter) (fun x => (w.shapes x).bb) w.barred p.1 p.2 then w
  else
    let kept := w.tree.pairs.contains p
    match collide M sc.par.inf sc.tiny (w.shapes p.1) (w.shapes p.2) (if kept then w.ids p.1 p.2 else 0) with
    | none => w
    | some info =>
      let w := { w with ids := fun x y => if kept && (x == p.1 && y == p.2) then info.id else w.ids x y }
      if info.contacts.isEmpty then w else w.collided sc inp (info.pair p) info

/-- `SpaceArbiterSetFilter`: hashset_arbiter.go:4-32. -/
def World.keep (sc : Scene K) (w : World K) (h : Held K) : Option (Held K) :=
  if (w.bodies (sc.figs h.a).body).type sc.par.inf = .static ∧ (w.bodies (sc.figs h.b).body).type sc.par.inf = .static then some h
  else
    let ticks := w.stamp - h.stamp
    let h := if ticks ≥ 1 ∧ h.arb.state ≠ .cached then { h with arb := { h.arb with state := .cached } } else h
    if ticks ≥ sc.persistence then none else some h

/-- The shapes after the bodies `bodies` have moved: space.go:570, 1269-1271. -/
def World.reshape (sc : Scene K) (inp : Tick K) (w : World K) (bodies : Nat → Body K) (i : Nat) : CShape K :=
  if i ∈ inp.order then cachedShape sc.par.inf (bodies (sc.figs i).body).tr (sc.figs i).cls (sc.figs i).hash else w.shapes i

/-- The broad phase of a step, with its calls: space.go:571. -/
def World.reindexed (sc : Scene K) (inp : Tick K) (w : World K) (bodies : Nat → Body K) : BBTree.State K × List (Nat × Nat) :=
  BBTree.reindexQuery w.tree inp.order (fun i => (w.reshape sc inp bodies i).bb) fun i => (bodies (sc.figs i).body).v

/-- The pairs of the broad phase that no moving leaf has cleared: bb_tree.go:271-275, 296-312. -/
def World.uncleared (sc : Scene K) (inp : Tick K) (w : World K) (bodies : Nat → Body K) : List (Nat × Nat) :=
  (inp.order.foldl (fun s i => (BBTree.leafUpdateDyn s i (w.reshape sc inp bodies i).bb (bodies (sc.figs i).body).v).1) w.tree).pairs

/-- The identifiers of those pairs that are not new. -/
def keptIds (pairs : List (Nat × Nat)) (ids : Nat → Nat → Nat) : Nat → Nat → Nat := fun x y => if pairs.contains (x, y) then ids x y else 0

/-- space.go:551-559 -/
def World.aged (w : World K) : List (Held K) :=
  w.cache.map fun h => if w.active.contains (h.a, h.b) then { h with arb := { h.arb with state := .normal } } else h

/-- A step before the first collision: space.go:545-571. -/
def World.begun (M : Mth K) (sc : Scene K) (inp : Tick K) (w : World K) : World K :=
  let bodies := (SolverState.positions M inp.dyn inp.dt ⟨w.bodies, [], w.joints⟩).bodies
  { w with bodies := bodies, shapes := w.reshape sc inp bodies, tree := (w.reindexed sc inp bodies).1, ids := keptIds (w.uncleared sc inp bodies) w.ids,
           cache := w.aged, active := [], stamp := w.stamp + 1 }

/-- The pairs the broad phase reports in a step. -/
def World.calls (M : Mth K) (sc : Scene K) (inp : Tick K) (w : World K) : List (Nat × Nat) :=
  (w.reindexed sc inp (SolverState.positions M inp.dyn inp.dt ⟨w.bodies, [], w.joints⟩).bodies).2

/-- The first half of a step, up to the collisions: space.go:545-573. -/
def World.found (M : Mth K) (sc : Scene K) (inp : Tick K) (w : World K) : World K :=
  (w.calls M sc inp).foldl (World.meet M sc inp) (w.begun M sc inp)

/-- What the solver works on: `Arbiters` with their contacts, `constraints`, and the bodies. -/
def World.solver (sc : Scene K) (w : World K) : SolverState K :=
  ⟨w.bodies, w.active.map fun p => ⟨(sc.figs p.1).body, (sc.figs p.2).body, heldArb w.cache p.1 p.2⟩, w.joints⟩

/-- The solver works on the arbiters themselves: here its result is stored back. -/
def World.store (w : World K) (s : SolverState K) : World K :=
  { w with
    bodies := s.bodies
    joints := s.joints
    cache := (w.active.zip s.arbs).foldl (fun c pl => c.map fun h => if h.is pl.1.1 pl.1.2 then { h with arb := pl.2.it } else h) w.cache }

/-- Old arbiters are thrown away: space.go:581-583. -/
def World.swept (sc : Scene K) (w : World K) : World K := { w with cache := w.cache.filterMap (w.keep sc) }

/-- `Space.Step`: space.go:540-646. -/
def World.step (M : Mth K) (sc : Scene K) (inp : Tick K) (w : World K) : World K :=
  if inp.dt = 0 then w
  else
    let f := (w.found M sc inp).swept sc
    { f.store (SolverState.solve M sc.par.inf sc.par.slop sc.par.cbias sc.par.damping sc.par.gravity inp.dyn w.prevDT inp.dt sc.par.iterations (f.solver sc)) with
      prevDT := inp.dt }

/-- What happens to a simulation. -/
inductive WorldOp (K : Type) where
  | step (inp : Tick K)
  | addDyn (i : Nat)
  | addStat (i : Nat)
  | removeDyn (i : Nat)
  | removeStat (i : Nat)
  | reindex (i : Nat)
  | setBody (k : Nat) (b : Body K)
  | setJoints (js : List (Link (Joint K))) (barred : Nat → Nat → Bool)

/-- `FilterArbiters` for a shape: space.go:395-408, hashset_arbiter.go:34-60. -/
def World.forget (w : World K) (i : Nat) : World K :=
  { w with cache := w.cache.filter fun h => !(h.a == i || h.b == i), active := w.active.filter fun p => !(p.1 == i || p.2 == i) }

/-- `CacheBB` of one shape: shape.go:155-162. -/
def World.recache (sc : Scene K) (w : World K) (i : Nat) : World K :=
  { w with shapes := fun j => if j = i then cachedShape sc.par.inf (w.bodies (sc.figs i).body).tr (sc.figs i).cls (sc.figs i).hash else w.shapes j }

/-- One thing that happens; `none` is a crash. `AddShape` is space.go:254-274, `RemoveShape` space.go:277-299, `ReindexShape` space.go:322-333. Changes the
user makes to a body by its setters, or to the joints, are given by their results. -/
def World.run1 (M : Mth K) (sc : Scene K) (w : World K) : WorldOp K → Option (World K)
  | .step inp => some (w.step M sc inp)
  | .addDyn i =>
    let w := w.recache sc i
    (BBTree.insertDyn w.tree i (w.shapes i).bb (w.bodies (sc.figs i).body).v).map fun t => { w with tree := t, ids := keptIds w.tree.pairs w.ids }
  | .addStat i =>
    let w := w.recache sc i
    (BBTree.insertStat w.tree i (w.shapes i).bb).map fun t => { w with tree := t, ids := keptIds w.tree.pairs w.ids }
  | .removeDyn i => (BBTree.removeDyn w.tree i).map fun t => { w.forget i with tree := t, ids := keptIds t.pairs w.ids }
  | .removeStat i => (BBTree.removeStat w.tree i).map fun t => { w.forget i with tree := t, ids := keptIds t.pairs w.ids }
  | .reindex i =>
    let w := w.recache sc i
    let m := (BBTree.leafUpdateDyn w.tree i (w.shapes i).bb (w.bodies (sc.figs i).body).v).1
    let t := BBTree.reindexDyn w.tree i (w.shapes i).bb (w.bodies (sc.figs i).body).v
    let m' := (BBTree.leafUpdateStat t i (w.shapes i).bb).1
    some { w with tree := BBTree.reindexStat t i (w.shapes i).bb, ids := keptIds m'.pairs (keptIds m.pairs w.ids) }
  | .setBody k b => some { w with bodies := fun j => if j = k then b else w.bodies j }
  | .setJoints js barred => some { w with joints := js, barred := barred }

/-- A history. -/
def World.run (M : Mth K) (sc : Scene K) (w : World K) : List (WorldOp K) → Option (World K)
  | [] => some w
  | op :: ops => match w.run1 M sc op with
    | none => none
    | some w => World.run M sc w ops

/-- A simulation in which nothing has happened: `NewSpace`, space.go:88-130. -/
def World.init (bodies : Nat → Body K) (shapes : Nat → CShape K) : World K :=
  ⟨bodies, [], fun _ _ => false, shapes, BBTree.init, fun _ _ => 0, [], [], 0, 0⟩

/-! ## The calls of `BeginFunc` and `SeparateFunc` -/

/-- Whether `BeginFunc` is called in one call of `SpaceCollideShapesFunc`, and for which shapes: space.go:1068-1101. -/
def World.begin1 (M : Mth K) (sc : Scene K) (w : World K) (p : Nat × Nat) : List (Nat × Nat) :=
  if queryReject (fun x => (sc.figs x).body) (fun x => (sc.figs x).filter) (fun x => (w.shapes x).bb) w.barred p.1 p.2 then []
  else match collide M sc.par.inf sc.tiny (w.shapes p.1) (w.shapes p.2) (if w.tree.pairs.contains p then w.ids p.1 p.2 else 0) with
    | none => []
    | some info =>
      if info.contacts.isEmpty then []
      else
        let ab := info.pair p
        let fa := sc.figs ab.1
        let fb := sc.figs ab.2
        if ((heldArb w.cache ab.1 ab.2).update (info.contacts.map Pushed.contact) info.n (w.bodies fa.body).p (w.bodies fb.body).p fa.surface fb.surface
          (sc.swap ab.1 ab.2)).state = .first then [ab] else []

/-- The calls of `BeginFunc` in the collisions `calls`. -/
def World.begins (M : Mth K) (sc : Scene K) (inp : Tick K) : World K → List (Nat × Nat) → List (Nat × Nat)
  | _, [] => []
  | w, p :: calls => w.begin1 M sc p ++ World.begins M sc inp (w.meet M sc inp p) calls

/-- The calls of `SeparateFunc` when old arbiters are thrown away: hashset_arbiter.go:12-24. -/
def World.separates (sc : Scene K) (w : World K) : List (Nat × Nat) :=
  (w.cache.filter fun h => !(decide ((w.bodies (sc.figs h.a).body).type sc.par.inf = .static ∧ (w.bodies (sc.figs h.b).body).type sc.par.inf = .static)) &&
    decide (w.stamp - h.stamp ≥ 1) && decide (h.arb.state ≠ .cached)).map fun h => (h.a, h.b)

/-- The calls of `SeparateFunc` when a shape is removed: hashset_arbiter.go:34-46. -/
def World.partings (w : World K) (i : Nat) : List (Nat × Nat) :=
  (w.cache.filter fun h => (h.a == i || h.b == i) && decide (h.arb.state ≠ .cached)).map fun h => (h.a, h.b)

end Cm
