# Formal model of setanarut/cm: design

The properties are in `properties.jsonl` (C01...). This file says how each is modelled and
proved, what is trusted, and where the code disagrees with the property.

## Layout

* `lean/Verif/Model/*.lean`: the model. Every definition cites file and lines in `/repo`.
* `lean/Verif/Spec/*.lean`: small specifications that do not use the model's helpers.
* `lean/Verif/Proofs/*.lean`: helper lemmas.
* `lean/Verif/Props/*.lean`: the property theorems, named `Cxx_...`, each followed by an `example`
  that meets its hypotheses.
* `seeded/LOG.jsonl`: results of editing the model as a bug would and rebuilding.
  An edit counts as caught if a proof outside the model files no longer goes through; edits that do not
  even type-check are left out. A proof that fails does not by itself show that the statement became
  false: some edits are caught because a proof relied on the form of the definition.

## Trusted base

1. Lean's kernel, and the axioms `propext`, `Classical.choice`, `Quot.sound` only.
2. The reading of the Go source. The code is not run here. Each definition cites its source lines.
3. Numbers. The models are written with `0`, `1`, `+`, `-`, `*`, `/` and an order only, so they can be
   read in any arithmetic. Most theorems read them in a linearly ordered field (`ℚ`, `ℝ`): exact
   numbers. The theorems on structure and safety (C06-C10, C42, C43, C64, C67, C89, C97, C111,
   C115, C116, C129) read them in any arithmetic with the laws of `Spec.Rounded` (monotone
   operations, exact zeros, no associativity and no distributivity), and functions that only compare
   numbers in any linear order. `Spec/Float` defines the numbers of IEEE 754 binary64, rounded to the
   nearest with ties to even and with subnormal numbers, and proves these laws of them; so those
   theorems hold of `float64` as long as no number overflows and no NaN occurs. The two zeros are one
   number in the model; the code never divides by a zero of known sign nor looks at the sign bit.
   Go may fuse a product and a sum into one rounding on some processors (not on amd64); this is not
   modelled. `sqrt`, `sin`, `cos`, `pow`, `exp`, `floor` are parameters, in the theorems over fields with
   the laws used (`Mth.Lawful`), in those over rounded numbers without any.
4. `infinity` (`math.MaxFloat64`) is a value above every value that occurs.
   `math.SmallestNonzeroFloat64`, which the code adds to divisors, replaces zero and leaves other
   numbers as they are (`guardedInv`); where the divisor is known to be positive it is left out.
5. The package `github.com/setanarut/vec` is not in the sandbox. Its operations are given their
   usual meaning (`Perp (x,y) = (-y,x)`, `ReversePerp (x,y) = (y,-x)`, `Cross` the determinant,
   `RotateComplex` the complex product, `Unit v = v/|v|`, `Lerp a b t = a(1-t)+bt`, `ClampMag` the
   rescaling to at most the given length, `Equal` componentwise equality, `IsNear` distance
   less than).
6. `uint`, `uintptr` stamps and counters are `Nat` unless the property is about bits
   (`ShapeFilter` and `HashPair` use 64-bit words). 2^64 steps are not reached.
7. Go panics (nil dereference, index out of range, explicit `panic`, `log.Fatal`) are explicit
   error values in the models where a property speaks about them.
8. Memory pools (`sync.Pool`, free lists of bins, nodes and pairs) hand out fresh objects, except
   where a property is about recycling (C16, C58, C74, C76, C94, C97, C105).

### Axioms

Every theorem of the manifest depends on at most `propext`, `Classical.choice` and `Quot.sound`
(`#print axioms`; `vcheck` checks this). There is no axiom, `sorry`, `admit`, `native_decide`,
`bv_decide`, `implemented_by`, `extern` or `unsafe` in `lean/Verif`. Concrete witnesses are checked
with `decide +kernel`, that is by the kernel's evaluation.

### What is modelled, file by file

| Source | Model | Left out |
|---|---|---|
| `hashset.go`, `hashset_arbiter.go` | `HashSet`, `HashSetHeap` (bins, links, pool), `Space` | callbacks that change the set while it is walked |
| `bb.go`, `transform.go`, `shape_filter.go`, parts of `everything.go` | `Vec`, `Handlers` | `String` |
| `bb_tree.go`, `spatial_index.go` | `BBTree`; pair lists (`Threads`, `Props/PairHeap`) and nodes (`TreeHeap`) also in memory | velocity prediction of boxes is an input; `Reindex` (panics) |
| `space_hash.go` | `SpaceHash`, `SpaceHashRay`, `SpaceHashHeap` (bins, links, free list) | callbacks that change the index while it is walked (but see C57) |
| `contact_buffer.go`, `space.go:422-446` | `ContactBuffer` | |
| `arbiter.go` | `Solver` (impulses), `ContactSet` (`Update`, point sets), `Handlers` (dispatch), `Space` (life cycle) | |
| joints (`*_joint.go`, `simple_motor.go`, `damped_*.go`, `constraint.go`) | `Solver`, `JointNew` | user callbacks of joints |
| `body.go` | `Body` (mass, motion), `Space` (sleeping), `Threads` (lists), `StaticBody` | user supplied update functions |
| `space.go` | `Space`, `SpaceEach`, `Lock`, `Narrow`, `Step`, `Detect`, `Idle` | `DebugInfo`, drawing |
| `circle.go`, `segment.go`, `polyshape.go`, `shape.go`, moments | `Shapes`, `ShapeMade` | |
| `collision.go`, GJK and EPA | `Collide` | |
| `poly_line.go`, `march.go`, convex hull | `Polyline`, `March`, `Hull` | |

`Step.lean` ties the positions, the solver and the velocities together for C91 and C92; the
contacts and the list of dynamic bodies of each step are its inputs, since they come from parts
modelled elsewhere. `World.lean` then closes the loop for C111 and C112: caching of shapes, trees,
narrow phase, filters, arbiters and their persistence, solver and storing back, over any history.
Left out of `World`: sleeping (`Space`), what callbacks do besides accepting or rejecting
(`Handlers`, `Lock`), and the limit on contact buffers (`ContactBuffer`). The order in which hash
sets are walked is an input of each step. A call of the broad phase reads the kept `collisionId`
exactly when its pair is in the list of pairs.

### Assumptions made in models

* The two bodies of an arbiter, and of a joint, are different.
* `Body` calls to `Activate` are left out of `Model/Body` (waking is in `Model/Space`).
* The sleep threshold does not change during a history; `CollisionPersistence` is at least 1.
* In the bookkeeping of a step (`Model/Space`) the pairs found touching are inputs that must name
  shapes in the space, not both static, of different bodies; callbacks of the collision phase wake
  no sleeping body (what happens otherwise: C31_push_twice). `Hit.begin` is `Begin`'s answer, false
  also when `Ignore` was called. Post-step callbacks are in `Model/Lock`.
* A body of infinite mass is one that is not dynamic.
* Arbiters from the pool are fresh; C76 shows that nothing refers to one given back, and `Init`
  overwrites every field (arbiter.go:34-56).
* Callbacks of a spatial hash query do not use the index (C57_nested_misses shows why).
* `closestT` of two equal points, which in Go divides 0 by 0 and ends up as 1, is modelled so.
* A polyline without vertexes is the empty list. Marching squares uses a pure sampling function and
  at least two samples in each direction. Hulls have tolerance 0, as in all callers
  (shape_factory.go:107, polyshape.go:171).
* Joint constructors get bodies, not nil.
* The callback of `SpaceHash.SegmentQuery` is a function of the shape.

Not modelled: the colours and user data handed to the drawer, `String` methods, `DebugInfo`, goroutine concurrency (the
library has none), user callbacks that break the documented rule of not altering the space while
it is locked.

## Where the code disagrees with what it should do

Each is proved as a theorem with a concrete witness unless marked (read).

Space and bodies
* `SetGravity` leaves every second sleeping group asleep (C26). `RemoveBodyWithShapes` leaves half
  of the shapes (C27). `SetStaticBody` always panics (C66).
* `DynamicBodyCount` leaves out sleeping bodies (C132_asleep_uncounted) and counts kinematic ones
  (C132_kinematic_counted).
* `SetType` on a sleeping body crashes if it has a shape, or leaves it asleep with a type that
  cannot sleep (C28). Adding a shape to a sleeping body crashes (C29). A body with an attached
  shape that is not in the space panics when it falls asleep (C78_unadded_shape).
* Removing a joint that is not there is a nil dereference (C30_remove_absent). Waking a sleeping
  body from a collision callback makes its contact list circular (C31_push_twice).
* `EachConstraint` skips joints between sleeping bodies (C77). A post-step callback registered from
  one is dropped (C20_dropped). The static pass of `BBQuery` runs unlocked (C21_bbQuery_unlocked).
* `Separate` may come late (C17_late_separate). `PostSolve` gets the handler in place of the user
  data (C60). Writing the contact set in `Separate` ends the program (C59_ended).
* The exported `SetTransform` leaves angle and position stale (C33). `SetMass` on a static body
  makes it movable (C87_static_mass). `KineticEnergy` is twice the kinetic energy (C130_energy_twice).
* `SetRadius`, `SetEndpoints` and `SetVerts` wake nobody (C107_geometry). Changing a shape of a static body does not wake
  what rests on it (C107_resting).
* `DrawSpace` leaves out joints of sleeping bodies (C108_joint_missing) and never asks the drawer for its flags (C108_flags).
  A spring with coincident ends is drawn with NaN (read).
* (read) `CollisionPersistence = 0`, thresholds of 0 or less, and lowering
  `SleepTimeThreshold` to infinity while bodies sleep are not supported by the code.

Solver
* A pair touching again within the persistence gets its old impulses counted but not applied
  (C72_retouch). Off-centre friction disturbs the normal target (C36_friction_disturbs).
* When the length of the steps changes, kept impulses are applied in proportion but not changed, so a stack at rest is set in
  motion a step later (C118_other_length).
* A gear of ratio other than 1 does not conserve spin (C38_gear_ratio) and depends on absolute
  angles (C91_gear). The rotary spring reports its damping with the wrong sign (C71_rotarySpring).
* The slide joint with coincident anchors exceeds its force limit (C37_slide_coincident). The warm
  start of a rotary limit joint may push outwards (C40_rotaryLimit_warm_start).
* A new ratchet holds the angle it was made at only until the first step, which may lower it by less than a tooth
  (C137_gives_back, C137_first). Rounding can make a ratchet lose a tooth when the bodies stand exactly on it
  (C139_lost, C139_released): the tooth is at the rounded product, its number is taken from the rounded quotient.
* A groove joint projects the impulse of a pivot on the normal of the groove, which is the impulse it needs only if an
  impulse across the groove does not move the tied points along it: else whatever slides along the groove is kicked out of
  it, and further iterations do not help (C140_miss, C140_kick, C140_same).
* Energy is added by a groove joint (C85_groove), a force-limited pivot (C85_pivot_limit) and by
  releasing friction (C85_friction_release).

Geometry and queries
* Thick ray casts miss shapes whose box the thin ray misses (C12). `ShapeQuery` is decided by the
  last shape (C49_order). `ShapesCollideInfo` has the wrong sign for swapped arguments
  (C48_swapped); circles against rounded polygons add the radius twice over (C48_rounded).
* The spatial hash files boxes by a quotient and starts ray casts at a product with the reciprocal; with a cell size such as
  49 a ray starting on a line of the grid is looked for one column too far left and misses what it goes through
  (C142_missed, C142_start_missed).
* GJK reports distance 0 for some disjoint collinear configurations, giving ghost contacts
  (C45_collinear, C45_ghost).
* Contacts do not always turn with the world: two circles with the same middle get the normal (1, 0) (C109_concentric), and of two equally
  deep directions the one reported depends on the axis-parallel boxes (C109_fresh_turned).
* A rod standing end-on exactly over one end of a polygon's side gets no contact although they overlap: both
  clipped places are at the far end of the rod (C102_end_on). In float64 one of them is NaN, with the same effect.
  This happens for every rod seen end-on whose first end is in front, over a shape which does not go on to the one
  side and with the second end out of reach (C100_end_missed). With the second end in front, or over a shape that
  goes on to that side for more than the guard, the contacts are right (C100_end_on).
* Point queries on the skeleton of a segment (C46_segment_on_skeleton); a ray from inside reports
  its far end as point (C47_start_inside); a ray level with a segment reports the exit (C79_level).
* `SetEndpoints` flips the normal (C62, C95_segment_side). `MomentForCircle2` is four times `MomentForCircle`
  (C61_circle2). `MomentForPoly` of two vertexes ignores the offset (C61_two_verts).
  `MomentForCircle` takes radii although its comment says diameters (C104_ring). The moment of a segment with
  rounding is that of the rectangle around it and always too large (C104_segment_moment).
* `convexHull` may keep a collinear vertex (C52_collinear).
* `SimplifyVertexes` on closed polylines (C54_vertexes_closed), and it may leave a corner flatter than the
  tolerance, made flat by dropping the next vertex (C127_flat_left); `SimplifyCurves` may crash
  (C54_curves_crash) or not end (C54_curves_negative), and its documented bound fails where the
  line doubles back (C82_doubling_back). Collected segments may stay open where a point starts two
  (C81_two_starts).
* Spatial hash: `Reindex` empties the table (C57_reindex_loses), queries nested in callbacks miss
  (C57_nested_misses), rays starting on a grid line and going down miss (C93_line_start).
* `SetVerts` of a polygon is exported but leaves its area, moment and centre as they were
  (C96_verts_stale); removing the last shape with mass leaves a dynamic body with mass 0, the mass
  given to `NewBody` being lost (C96_last_removed).
* `BBTree.Insert` of a shape that is there already links its leaf in twice, and its removal leaves a
  recycled node as root (C97_twice); the space refuses it before (C23).

## Plan per property

| Id | Model | Proof |
|---|---|---|
| C01 | `HashSet`: table of chains with stored hashes, `entries` | refinement to a finite set by induction over operations |
| C02 | same, `resize`, `nextPrime` with index panic as `none` | invariant `entries < size`, rehash is a permutation |
| C03 | handler registry over C01 with `HashPair` on 64-bit words | corollary of the refinement; `HashPair` symmetric |
| C04 | `Arbiter.Update` handler/swap selection, `Shapes`, wildcard calls | case analysis over all types and orders |
| C05 | `ShapeFilter.Reject` on `BitVec 64` | bitwise algebra |
| C06, C07 | `BBTree` pair of trees: functional trees, stamp, global pair list (newest first; a leaf's thread is its sublist) | invariant "exactly one cached pair per overlapping leaf pair", then exactly-once theorem for `ReindexQuery`, by induction over histories |
| C08 | tree leaves | multiset of leaves invariant |
| C09 | `SubtreeQuery` | equality with the filtered leaf list |
| C10 | boxes of nodes | invariant |
| C11 | `SubtreeSegmentQuery`, `queryFirst` | induction on the tree with the running exit fraction |
| C12 | same | negation with a witness; the zero radius case is C11 |
| C13 | `BB.SegmentQuery` | slab argument over an ordered field |
| C14, C15 | `BB` | order algebra; `math.Mod` as truncated modulus |
| C16 | contact buffer ring | ring sorted by stamp invariant, ghost log of reservations |
| C17, C18 | life cycle of one pair as a state machine with user callback answers as inputs | trace grammar invariant by induction over events |
| C19 | `CachedArbitersFilter` over the set of arbiters | filter lemma plus C17 machine |
| C20, C21 | post-step queue and lock depth with an interpreter for nested callbacks | order/once by induction; negation for callbacks registered from callbacks |
| C22, C23, C24, C69 | `Space` bookkeeping state machine: body lists, sleeping groups, shape indexes as sets | invariant by induction over operations |
| C25 | `FloodFillComponent` over a finite graph | depth first search equals reachability |
| C26 | `SetGravity` with Go slice aliasing (range over a shifted array) | negation with three groups; partial for at most two |
| C27 | `EachShape` index loop with swap delete | negation with two shapes; exact number left behind |
| C28, C29 | `SetType`, `AddShape` with absent-shape panic | negation; partial for awake bodies |
| C30 | intrusive constraint lists | representation invariant by induction over histories |
| C31 | doubly linked arbiter threads on a heap | separation style invariant |
| C32 | `AccumulateMassFromShapes` fold | induction over the list, order independence |
| C33 | body kinematics | invariant over setter histories |
| C34, C35, C36 | contact solver | field algebra; induction over iterations |
| C37–C40, C68 | the joints | clamp lemmas, field algebra |
| C41, C42 | `Transform` | ring identities, interval bounds |
| C43 | `CacheData` of the three shape classes | convexity and interval bounds |
| C44 | `CircleToCircle`, `CircleToSegment` | real algebra with `sqrt` |
| C45 | `GJK`, `GJKRecurse`, `ClosestPoints` | support function certificate |
| C46 | point queries | closest point lemma, fold minimum |
| C47 | `CircleSegmentQuery` | quadratic root analysis |
| C48 | `ShapesCollideInfo` | negation for swapped order; partial for the unswapped order |
| C49 | `ShapeQuery` fold | negation; characterisation by the last visited hit |
| C50, C51 | integration | direct, induction over steps |
| C52 | `loopIndexes`, `QHullReduce`, `QHullPartition` | induction on array segments |
| C53 | `PolyLineCollectSegment` | edge multiset invariant |
| C54 | `DouglasPeucker` with index panic | negation; subsequence theorem when no panic occurs |
| C55, C56 | marching squares | edge flux case analysis, sums over grids |
| C57, C58 | `SpaceHash` | bins, stamps, reference counts |
| C59 | contact point sets | ring identities |
| C60 | user data passing | negation for PostSolve; others direct |
| C61 | moments and areas | sums over cyclic lists; negation for `MomentForCircle2` |
| C62 | segment normals | negation; endpoints part |
| C63 | `closestPointOnSegment` | ordered field |
| C64 | warm start in `Update` | list characterisation |
| C65 | `UseSpatialHash` | set equality |
| C66 | `SetStaticBody` | negation: it always panics after `NewSpace` |
| C67 | `ReindexObject` then query | corollary of C09 and C10 |
| C68 | springs | exponential factor in (0,1] |
| C69 | sleeping groups | part of the space invariant |
| C70 | loops of `Step` over arbiters and joints | exchange lemma, sum over bodies |
| C71, C72, C75 | reported impulses | accumulation along iterations |
| C73 | surface properties | algebra |
| C74 | cached pairs on a heap with pool | refinement to a list of pairs |
| C76 | pooled arbiters | invariant over histories |
| C77, C78 | `EachConstraint`, absence of failure | from the space invariant |
| C79, C80 | ray casts of segments and polygons | slab and plane arguments |
| C81–C84 | contours | degree counting, case analysis of cells |
| C85 | energy | completing the square, projected Gauss–Seidel steps |
| C86 | overlap correction | algebra, induction over iterations |
| C87 | inverse masses | invariant over setters |
| C88 | joint constructors | fixed point of all phases |
| C89 | pairs reaching the narrow phase | composition of C05, C06, C07, C30 |
| C90 | exchange of the bodies of links | simulation over whole solves |
| C91 | change of frame | simulation over any number of steps |
| C92 | centre of mass | exchange lemma and sums over bodies, induction over steps |
| C93 | grid walk | crossing times of each axis, induction over the loop |
| C94 | bins in memory | simulation of the list model, chains disjoint |
| C95 | shapes as made | outline lemma of C46 with the hull of C52; `Props/MadeMore` for boxes anywhere and the rounding |
| C96 | body and shape list | invariant over histories, sums insensitive to massless shapes and order |
| C97 | `TreeHeap` (nodes in memory, free list) | addressed trees in memory, zipper from leaf to root, induction over calls |
| C98 | Model/Detect.lean | composition: C89 (pairs tested), C43 (boxes contain shapes), C44 (exact tests), C95 (what constructors make); Props/Detect.lean |
| C99 | `Step`, `Solver` | `Props/Units.lean` |
| C100 | `Model/Collide` | `Props/ContactEdges`: at a farthest corner the normal lies in the cone of the two adjacent sides (`corner_sides`), so the chosen side faces the normal and carries every farthest point; both clamped parameters lead to the same place along the surface (`walk_up`, `walk_down`); the gap is linear between the two places, so its least value is taken at one of them; `Props/ContactEnds`: for a rod seen end-on the guarded reciprocal sends the parameter to one of its ends |
| C101 | `Model/Collide` | `Props/Epa`: the number of times the chain goes round the origin, counted by signed crossings of a ray, never falls when a point is inserted or dropped (`crossing_triangle`, `rebuild_count`, `insert_count`), so every ray leaves through an edge that is no nearer than the one chosen (`epaScan_min`) |
| C102 | `Model/Detect`, `Model/Collide` | `Props/DetectEdges`: C89 for the pairs, C100 and C101 for each pair (`exact_near`), witness `C102_end_on` |
| C103 | `Model/Shapes` (`areaFor…`, `massInfo`) | `Props/Area`: Lebesgue measure; Cavalieri for sweeping, gluing of convex pieces, induction over the vertexes |
| C104 | `Model/Shapes` (`momentFor…`, `centroidForPoly`, `massInfo`) | `Props/Inertia`: integrals over triangles by change of variables, induction over the vertexes; polar coordinates for circles; for segments the corners of the rectangle lie above the average; `Props/MadeMore` for `MomentForSegment` |
| C105 | `Model/SpaceHashHeap.lean` | `Props/SpaceHashHeap.lean` (refinement of `Model/SpaceHash.lean`, `C105_holds`) |
| C106 | `Model/Collide` | `Props/GjkEnds` (measure: sides nearer than the current one; EPA: chain once round the origin with no point seen beyond an edge), `Props/SupportCount` (each support point is given on one arc of directions, at most a + b pairs of arcs) |
| C107 | `Model/Setters` on `Model/Space` | `Props/Setters` from C24; witnesses `C107_geometry`, `C107_resting` |
| C108 | Model/Draw | Props/Draw |
| C109 | `Model/Collide`, `Model/Detect`, `Model/ContactSet` | `Props/FrameDetect`: the searches run in step in both frames; witnesses `C109_concentric`, `C109_fresh_turned` |
| C110 | `Model/BBTree`, `Model/Detect` | `Props/TreeAxes`: what the tree asks of boxes (`BoxSym`) is kept by each change and by compositions; then equivariance of every operation by induction over trees and histories; C109 for the pairs found |
| C111 | `Model/World` | `Props/World`: simulation relation from `World.run` to `SolverState.steps`, then C92 carried over |
| C112 | `Model/World` | `Props/WorldShift`: C91 (solver), C109 (narrow phase, caching, arbiters) and C110 (trees) put together; induction over histories |
| C113 | `Model/World` | `Props/WorldFound`: an invariant of the history (the tree refines the index of boxes, the shapes are up to date, transforms are rigid); calls of the narrow phase for different pairs do not concern each other; C102 for one pair |
| C114 | `Model/World` (`begins`, `separates`, `partings`: the callbacks of a step and of a removal) | `Props/WorldPhase`: refinement of the kept arbiters to an automaton with three phases driven by the geometry; invariant of the cache (one arbiter for two shapes, out-of-date ones are cached) |
| C115 | `Model/Solver`, `Model/Step`, `Model/World` | `Props/Groups`: a loop over links does to a sealed group what the loop over the links within it does (induction over the links), lifted over the phases of a step and over steps |
| C116 | `Model/World`, `Model/ContactSet` | `Props/WorldContacts`: invariants over histories; each call of the narrow phase concerns only its own pair; reading back the stored arbiters gives the solver's state |
| C117 | `Model/WorldQuery` | `Props/WorldQuery`: the boxes in the trees are those of the shapes and these are where the bodies are (induction over histories); then C09, C11, C43, C46, C47, C79, C80 put together |
| C118 | `Model/Solver`, `Model/Step` | `Props/Rest`: the loop that applies kept impulses adds their sum to each body (`shovedAll`), so gravity is undone; from then on every phase is at a fixed point; induction over steps; witness `C118_other_length` |
| C119 | `Model/World`, `Model/Step`, `Model/Collide` | `Props/WorldRest`: a step that leaves the bodies finds the same pairs again (C113), each with the same contact or its mirror image, and the cache gives back its impulses, so the equilibrium of C118 holds again; induction over steps. `Props/WorldFloor`: the first push of the first iteration makes up for gravity, after which C119_settled applies |
| C120 | `Model/World`, `Model/Solver` | `Props/Impact`: the normal passes through the centres, so push and friction do not disturb each other; one turn of the solver reaches the laws from any impulses, and a contact that obeys them is a fixed point of further turns; C115 reduces the step to the two bodies, C113 and `found_call` give the contact. Off-centre contacts are not covered (see C36) |
| C121 | `Model/World`, `Model/Body` | `Props/Flight`: C115 (a body alone) and C113 (collisions are exactly the touching pairs) by induction over the history, geometric sums for the closed forms. `C121_thrown` proves the absence of collisions from the formulas themselves |
| C122 | `Model/Arbiter`, `Model/World` | `Props/Sunk`: `impact` also gives the correction velocities (`contactStep_parts`); the laws of C120 leave a resting ball at rest, so by induction over the steps only the height changes, by the correction alone. `C122_gap` is one step for any collision C120 covers |
| C123 | `Model/Arbiter`, `Model/World` | `Props/Bounce`: the work of an impulse is the impulse times the mean velocity of its point (`kick_energy`); with the laws of C120 the work along the normal is `-(1-e²)s²/Σ(1/m)` and that of friction is not positive |
| C124 | `Model/Arbiter`, `Model/World` | `Props/Tunnel`: invariant `Aloft` (not below `l` now nor after the next step, and only lifted by the correction), kept by each step (`floor_step`): above the floor the ball flies on (C115), touching it leaves with at least `e` times the speed of approach (C120) |
| C125 | `Model/Arbiter`, `Model/World` | `Props/Rolling`: invariant `Sliding` (the ball moves as `q` says), kept by `Rolled.next` by the laws of C120 (`laws_slide`); closed forms by induction, `upTo_add` |
| C126 | `Model/Solver`, `Model/World` | `Props/Driven`: one application of a joint already satisfies the law `Drives`, and a state that does is a fixed point of further ones (`turns_drive`); the pair is isolated by C115 (`only_joint`); induction over the steps |
| C127 | `Model/Polyline` | `Props/PolylineSharp`: induction over the vertexes with the last one kept; a line with a flat corner left (C127_flat_left) |
| C128 | `Model/Solver` | `Props/Descent`: a contact's step never raises the energy of the error and lowers it by the square of what it changes (projected Gauss–Seidel), `Props/Converge`: a pass over the collisions is such a sweep |
| C129 | all of `Model` read in rounded arithmetic; `Spec/Rounded`, `Spec/Float` | `Props/Rounding`: monotonicity and exact zeros only; `Props/WorldIndex` for the broad phase of the whole simulation |
| C130 | `Model/Body` | `Props/Force`: induction over the list of calls; moments shifted to any point |
| C131 | `Model/Idle`, `Model/Space` | `Props/Idle`: induction over the calls, idle times grow by no more than the time that passes |
| C132 | `Model/Inventory`, `Model/Space` | `Props/Inventory`: from the invariant of `Proofs/Space*` over all histories; partial, since `DynamicBodyCount` leaves out sleeping bodies and counts kinematic ones |
| C133 | `Model/World`, `Model/Solver` | `Props/Hinge`: the last iteration of the solver sets the opening speed, the next step moves the points by it, and a bound by induction over the steps; the arc against its tangent by the mean value theorem |
| C134 | `Model/World`, `Model/Solver` | `Props/Rod`: as for hinges (`Props/Hinge`), with the direction of the line turning from step to step; the second order terms by completing the square |
| C135 | `Model/World`, `Model/Solver` | `Props/RotarySpring`: the step as a linear recurrence of the second order; two quadratic invariants; the limit over the reals by the roots of the characteristic polynomial |
| C136 | `Model/World`, `Model/Solver` | `Props/LinearSpring`: the step in vectors; the areas by induction; along a line the recurrence and the invariants of `Props/RotarySpring` |
| C137 | `Model/World`, `Model/Solver`, `Model/JointNew` | `Props/Ratchet`: the impulses as one clamped turn; induction over the steps with the held tooth as the state |
| C138 | `Model/World`, `Model/Solver` | `Props/Strut`: the last iteration meets its target; geometric recurrence with the surplus of C134 |
| C139 | `Model/Solver`, `Model/World`, `Spec/Float` | `Props/ToothLost`: whole numbers and relative error in binary64; monotone rounding; concrete witness of the lost tooth |
| C140 | `Model/World`, `Model/Solver` | `Props/Groove`: the impulse is a projection of the pivot's; linear algebra of the responses; induction over the steps |
| C141 | `Model/SpaceHash`, `Spec/Rounded` | `Props/HashRounded`: the rounded hash is the exact one with boxes counted in cells (simulation over the histories); monotonicity of rounding |
| C142 | `Model/SpaceHash`, `Model/SpaceHashRay`, `Spec/Rounded` | `Props/HashRayRounded`: induction over the loop with any rounding; witness in float64 |
| C143 | `Model/SpaceHash` | `Props/HashSpread`: odd factors are invertible modulo powers of two; exclusive or cancels |
| C144 | `Model/Solver` | `Props/Kaczmarz` (going round equations one block at a time: energy falls, Gram-Schmidt, contraction), `Props/JointsMeet`: each joint projects onto its equations |
| C145 | `Model/Solver` | `Props/JointsStrong`: impulses of an iteration are bounded by the square root of the energy of what is missing, which falls geometrically (C144) |
| C146 | `Model/Solver` | `Props/AllMeet`: a potential that a contact's step (C128) and a joint's step (C144) both lower by the energy of their change; it cannot fall by much for ever, and an iteration that lowers it by little leaves little unmet |
| C147 | `Model/Solver` | `Props/MixedDescent`: rounds of pushes and corrections converge in the energy norm; `Props/AllSettle`: the solver's iterations are such rounds |
| C148 | `Model/Solver` | `Props/AllExist`: induction over the contacts: solve without the contact; if that violates it, solve with the contact as an equation, and its impulse pushes; then C147 and C128 |
| C149 | `Model/Solver`, `Model/Collide` | `Props/Heaps`: enlarge the heap like a picture from the common point, fast enough for the finitely many contacts; then C148 and C128 |
| C150 | `Model/Solver` | `Props/JointTrees`: induction over the order in which bodies are hung: the new body alone can give its joint what it asks for; then C145 |
| C151 | `Model/World`, `Model/Solver` | `Props/Swarm`, `Props/SwarmFloor`: the normals of all collisions that a step finds point from centre to centre, or from a centre to the nearest point of a rod and so towards all of the rod, hence the balls are a heap that opens (C149); the collisions do not depend on the number of iterations (C111) |
