{"id": "C01", "title": "Hash set behaves as a mathematical set", "statement": "For any sequence of Insert, Remove, Find, Filter and Each on a hash set whose equality test and hash values are consistent, Find returns an element exactly when it was inserted and not since removed, Insert of a present key returns the stored element and changes nothing, Count is the number of stored elements, and Each visits every stored element exactly once.", "quantifier": "all element types, all hash values (including all colliding), all operation histories, through any number of table growths", "why_tests_cant": "The result depends on chain order, table size and growth points reached by arbitrary long histories; tests see a few.", "anchors": ["hashset.go: NewHashSet, Insert, Remove, Find, Each, Filter, Count, resize"]}
{"id": "C02", "title": "Hash set growth is safe and bounded", "statement": "Growing the table never loses, duplicates or reorders the membership of any element; after every operation the number of entries is strictly below the table size (so chains stay short on average), and the only way an insertion can fail is exceeding the last prime in the table.", "quantifier": "all histories of any length", "why_tests_cant": "Growth occurs at sizes that tests never reach, up to 1610612741 entries.", "anchors": ["hashset.go: resize, nextPrime, primes"]}
{"id": "C03", "title": "Collision handler registry is symmetric and exact", "statement": "AddCollisionHandler(a,b) and AddCollisionHandler(b,a) denote the same handler; looking up an unordered pair of types returns the handler registered for exactly that unordered pair, or the default when none is registered; registering other pairs never disturbs it.", "quantifier": "all collision types, all registration histories", "why_tests_cant": "Unbounded histories of registrations and 2^128 pairs of types, with deliberate hash collisions.", "anchors": ["space.go: LookupHandler, AddCollisionHandler, AddCollisionHandler2, AddWildcardCollisionHandler", "collision.go: HashPair"]}
{"id": "C04", "title": "Callbacks see shapes in registration order", "statement": "Whenever a registered pair handler callback runs for two shapes, Arbiter.Shapes() returns first the shape whose collision type is the handler's TypeA and second the one of TypeB; whenever a wildcard handler callback runs, Shapes() returns first the shape of the wildcard's type; the swap flag is the same after all callbacks as before.", "quantifier": "all handler sets, all shape type pairs, both argument orders of the collision", "why_tests_cant": "The shape order depends on shape class order, broad phase order and registration order jointly.", "anchors": ["arbiter.go: Update, Shapes, CallWildcardBeginA, CallWildcardBeginB, CallWildcardSeparateB, DefaultBegin", "space.go: LookupHandler"]}
{"id": "C05", "title": "Shape filters reject symmetrically", "statement": "ShapeFilter.Reject is symmetric; shapes in the same non-zero group always reject; ShapeFilterNone rejects everything; otherwise two filters accept exactly when each one's categories meet the other's mask.", "quantifier": "all 64-bit category and mask words, all groups", "why_tests_cant": "2^256 pairs of filters.", "anchors": ["everything.go: ShapeFilter.Reject, ShapeFilterAll, ShapeFilterNone"]}
{"id": "C06", "title": "Broad phase finds every overlapping pair", "statement": "After any history of inserting, removing and reindexing shapes with arbitrarily moving bounding boxes, the next collision query invokes its callback on every pair of shapes with intersecting bounding boxes at least one of which is in the dynamic index.", "quantifier": "all histories of the two paired bounding box trees, all box motions, any number of shapes", "why_tests_cant": "Correctness rests on stamps and cached pairs built up over arbitrary histories and tree shapes.", "anchors": ["bb_tree.go: Insert, Remove, ReindexObject, ReindexQuery, LeafUpdate, PairsClear, PairInsert, MarkLeaf, MarkLeafQuery, MarkSubtree, LeafAddPairs"]}
{"id": "C07", "title": "Broad phase never reports a pair twice", "statement": "In one collision query no unordered pair of shapes is passed to the callback more than once, no shape is paired with itself, and two static-index shapes are never paired.", "quantifier": "all histories of the two paired bounding box trees", "why_tests_cant": "A duplicate needs a specific combination of stamps, cached pairs and tree sides; reporting twice would create a cyclic contact list.", "anchors": ["bb_tree.go: ReindexQuery, MarkLeaf, MarkLeafQuery, PairInsert"]}
{"id": "C08", "title": "Spatial tree contents equal insertions minus removals", "statement": "For every history, the shapes enumerated by the tree index, its Contains answers and its Count agree with the set of shapes inserted and not yet removed, and the leaves of the tree are exactly these shapes.", "quantifier": "all histories, all boxes, all tree shapes", "why_tests_cant": "Tree rotations and re-insertions depend on arbitrary box geometry.", "anchors": ["bb_tree.go: Insert, Remove, ReindexObject, SubtreeInsert, SubtreeRemove, ReplaceChild, Each, Contains, Count"]}
{"id": "C09", "title": "Box query is exact", "statement": "The tree's box query calls back exactly once for each shape whose stored box intersects the query box and never for others; hence Space.BBQuery reports exactly once each shape accepted by the filter whose own bounding box intersects the query box, and no other shape.", "quantifier": "all trees reachable by any history, all query boxes and filters", "why_tests_cant": "Pruning correctness depends on the inner boxes of arbitrary trees.", "anchors": ["bb_tree.go: Query, SubtreeQuery", "space.go: BBQuery, bbQuery", "bb.go: Intersects"]}
{"id": "C10", "title": "Inner boxes are tight unions", "statement": "After every operation each inner tree node's box is exactly the union of the boxes of the shapes below it, and each shape's stored box contains the shape's own bounding box as of its last reindex.", "quantifier": "all histories, all boxes and velocities", "why_tests_cant": "Invariants over unbounded histories.", "anchors": ["bb_tree.go: SubtreeInsert, ReplaceChild, LeafUpdate, GetBB", "bb.go: Merge, Contains"]}
{"id": "C11", "title": "First-hit segment query returns the nearest hit", "statement": "With zero radius, SegmentQueryFirst returns the smallest hit fraction over all filter-accepted non-sensor shapes (those whose hit lies within their bounding box), and reports no hit exactly when none is hit before the end; traversal order and tree pruning do not change the answer.", "quantifier": "all trees, all segments, all shape sets", "why_tests_cant": "Pruning by the running exit fraction depends on tree shape and visiting order.", "anchors": ["bb_tree.go: SubtreeSegmentQuery", "space.go: SegmentQueryFirst, queryFirst", "bb.go: SegmentQuery"]}
{"id": "C12", "title": "Thick segment queries find every hit", "statement": "SegmentQuery and SegmentQueryFirst with a positive radius report every shape hit by the swept circle.", "quantifier": "all trees, segments, radii", "why_tests_cant": "A miss needs a shape whose box is missed by the thin segment but hit by the thick one, in a tree with at least two shapes.", "anchors": ["bb_tree.go: SubtreeSegmentQuery", "space.go: SegmentQuery, SegmentQueryFirst"]}
{"id": "C13", "title": "Box ray cast is exact", "statement": "BB.SegmentQuery(a,b) returns the smallest fraction t in [0,1] at which the point a+t(b-a) lies in the box, and infinity exactly when the segment misses the box; BB.IntersectsSegment agrees.", "quantifier": "all boxes, all segments including axis-parallel and degenerate ones", "why_tests_cant": "Continuous domain with many degenerate cases.", "anchors": ["bb.go: SegmentQuery, IntersectsSegment"]}
{"id": "C14", "title": "Bounding box algebra", "statement": "Merge is the least box containing both arguments, Expand the least containing a point, Contains is a partial order, Intersects is symmetric and holds exactly when a common point exists (for proper boxes), Center, Area and Offset behave as on sets of points, MergedArea is the area of Merge.", "quantifier": "all boxes", "why_tests_cant": "Continuous domain.", "anchors": ["bb.go: Merge, Expand, Contains, ContainsVect, Intersects, Center, Area, MergedArea, Offset, NewBBForExtents"]}
{"id": "C15", "title": "Clamping and wrapping into a box", "statement": "BB.ClampVect returns the point of the box nearest to its argument and fixes points inside; BB.WrapVect returns a point inside the box which differs from the argument by whole multiples of the box's width and height.", "quantifier": "all proper boxes and points", "why_tests_cant": "Continuous domain, sign and boundary cases of the modulus.", "anchors": ["bb.go: ClampVect, WrapVect", "everything.go: clamp"]}
{"id": "C16", "title": "Contact memory is never overwritten while live", "statement": "For any history of steps and contact reservations, a contact handed out in some step is not handed out again until more than CollisionPersistence steps later, different reservations in the same step never overlap, and each reservation fits its buffer.", "quantifier": "all histories of steps and reservations of any length, all persistence values", "why_tests_cant": "The buffers form a ring reused only after a stamp difference; wrap-around needs long histories.", "anchors": ["space.go: PushFreshContactBuffer, ContactBufferGetArray, PushContacts, PopContacts", "contact_buffer.go: NewContactBuffer, InitHeader"]}
{"id": "C17", "title": "Begin and Separate alternate", "statement": "For each pair of shapes the Begin and Separate callbacks strictly alternate starting with Begin, whatever the user callbacks return, whatever pattern of touching, sleeping, waking and removal occurs; after the pair has been apart for a step, or one shape is removed, Separate has been called.", "quantifier": "all touching histories, all callback return values, persistence at least 1", "why_tests_cant": "Histories are unbounded and the arbiter cache state depends on all of them.", "anchors": ["space.go: SpaceCollideShapesFunc, Step, FilterArbiters, Activate, Deactivate", "hashset_arbiter.go: SpaceArbiterSetFilter, CachedArbitersFilter", "arbiter.go: Update, Ignore"]}
{"id": "C18", "title": "Rejected collisions stay rejected", "statement": "If Begin returns false or Ignore is called from Begin or PreSolve, PreSolve and PostSolve are not called again for that pair until it separates; if PreSolve returns false only that step's collision is dropped; the solver only ever receives pairs accepted in that step or pairs woken from sleep.", "quantifier": "all touching histories and all callback return values", "why_tests_cant": "Unbounded histories.", "anchors": ["space.go: SpaceCollideShapesFunc, Step", "arbiter.go: Ignore, Update"]}
{"id": "C19", "title": "Removing a shape ends all its collisions", "statement": "After RemoveShape returns, no cached or active collision mentions the shape, and Separate was called exactly once for every collision of it which had begun and not ended.", "quantifier": "all sets of active and cached collisions", "why_tests_cant": "Depends on arbitrary cache contents.", "anchors": ["space.go: RemoveShape, FilterArbiters", "hashset_arbiter.go: CachedArbitersFilter"]}
{"id": "C20", "title": "Post-step callbacks run exactly once", "statement": "Every callback for which AddPostStepCallback returned true is run exactly once, in registration order, with at most one callback pending per key, no later than the end of the current or next step, even if callbacks register further callbacks.", "quantifier": "all registration and nesting histories, all keys", "why_tests_cant": "Arbitrary nesting of callbacks, queries and steps.", "anchors": ["space.go: AddPostStepCallback, PostStepCallback, Lock, Unlock"]}
{"id": "C21", "title": "Space lock is balanced", "statement": "Every public operation leaves the lock depth as it found it, deferred wake-ups are performed when and only when the depth returns to zero, and post-step callbacks are run only when the space is unlocked and never re-entrantly.", "quantifier": "all nestings of operations", "why_tests_cant": "Unbounded nesting.", "anchors": ["space.go: Lock, Unlock, IsLocked, EachBody, Step, SegmentQuery, BBQuery"]}
{"id": "C22", "title": "Every body is enumerated exactly once", "statement": "For any history of adding and removing bodies, sleeping and waking, EachBody visits each body added and not removed exactly once, whether awake, static or asleep; EachDynamicBody and EachStaticBody split them by type.", "quantifier": "all histories", "why_tests_cant": "Bodies migrate among lists on sleep and wake over unbounded histories.", "anchors": ["space.go: AddBody, RemoveBody, EachBody, EachDynamicBody, EachStaticBody, Activate, Deactivate, ProcessComponents"]}
{"id": "C23", "title": "Shapes are always in exactly one index", "statement": "For any history, every shape added and not removed is in exactly one of the two spatial indexes: the static one if its body is static or asleep, the dynamic one otherwise; ShapeCount equals the number of such shapes.", "quantifier": "all histories of adding, removing, sleeping, waking", "why_tests_cant": "Unbounded histories.", "anchors": ["space.go: AddShape, RemoveShape, Activate, Deactivate, ContainsShape, ShapeCount, EachShape"]}
{"id": "C24", "title": "Waking wakes the whole group", "statement": "Body.Activate on any sleeping body wakes every body of its sleeping group and no other, resets their idle times, and restores each of their joints and contacts to the active lists exactly once.", "quantifier": "all sleeping groups of any size, all contact and joint graphs", "why_tests_cant": "Graphs of unbounded size.", "anchors": ["body.go: Activate, ComponentRoot, ActivateStatic", "space.go: Activate"]}
{"id": "C25", "title": "Sleep is by connected component", "statement": "When sleeping is enabled, after a step the grouping of dynamic bodies is exactly connectivity through contacts and joints among dynamic bodies; a group goes to sleep all together or not at all, exactly when none of its members has been idle for less than the threshold; the internal consistency check never fires and kinematic bodies never sleep.", "quantifier": "all contact and joint graphs, all idle times, positive thresholds", "why_tests_cant": "All graphs; recursion order.", "anchors": ["space.go: ProcessComponents, FloodFillComponent, ComponentActive, Deactivate", "body.go: ComponentAdd"]}
{"id": "C26", "title": "SetGravity wakes every sleeping body", "statement": "After SetGravity on an unlocked space no body is asleep.", "quantifier": "all numbers of sleeping groups", "why_tests_cant": "Only fails with several sleeping groups in particular list positions.", "anchors": ["space.go: SetGravity", "body.go: Activate"]}
{"id": "C27", "title": "RemoveBodyWithShapes removes all shapes", "statement": "After RemoveBodyWithShapes(body) none of the body's shapes is in the space and the body is not in the space.", "quantifier": "all numbers of shapes", "why_tests_cant": "Depends on number and order of shapes.", "anchors": ["space.go: RemoveBodyWithShapes, RemoveShape", "body.go: EachShape, RemoveShape"]}
{"id": "C28", "title": "SetType moves a body consistently", "statement": "SetType on a body in a space, awake or asleep, does not crash and leaves the body in the list and its shapes in the index belonging to the new type.", "quantifier": "all body states and type changes", "why_tests_cant": "Includes sleeping bodies, reached only after long simulations.", "anchors": ["body.go: SetType, Activate", "space.go: Activate"]}
{"id": "C29", "title": "Adding a shape to a sleeping body works", "statement": "Creating a shape on a body which is asleep in a space and adding it with AddShape wakes the body and adds the shape without a crash.", "quantifier": "all sleeping bodies", "why_tests_cant": "Needs a body asleep at the moment of the call.", "anchors": ["space.go: AddShape, Activate", "body.go: AttachShape, Activate"]}
{"id": "C30", "title": "Constraint lists are exact", "statement": "For any history of AddConstraint and RemoveConstraint, each body enumerates exactly once each joint in the space attached to it, and whether two bodies are barred from colliding by a joint does not depend on the order of the two bodies.", "quantifier": "all histories, any number of joints between any bodies (two distinct bodies per joint)", "why_tests_cant": "Intrusive singly linked lists threaded through both bodies.", "anchors": ["space.go: AddConstraint, RemoveConstraint, QueryRejectConstraints", "body.go: RemoveConstraint, filterConstraints, EachConstraint", "constraint.go: Next"]}
{"id": "C31", "title": "Contact lists of bodies are exact", "statement": "For any history of attaching and detaching contacts, Body.EachArbiter visits exactly once each contact currently attached to the body, detaching one leaves all others, and afterwards both bodies no longer list it.", "quantifier": "all histories of attach and detach in any order", "why_tests_cant": "Doubly linked lists threaded through two bodies with pointer updates.", "anchors": ["arbiter.go: Unthread, unthreadHelper, Next, ThreadForBody", "body.go: PushArbiter, EachArbiter"]}
{"id": "C32", "title": "Mass properties are the sums over shapes", "statement": "After AccumulateMassFromShapes the body's mass is the sum of the shape masses, its centre of gravity the mass-weighted mean and its moment the parallel-axis sum about that centre; the result is independent of the order of shapes and leaves Position unchanged.", "quantifier": "all lists of shapes with non-negative masses, positive total", "why_tests_cant": "Incremental update over lists of any length.", "anchors": ["body.go: AccumulateMassFromShapes"]}
{"id": "C33", "title": "Position and coordinate conversions are consistent", "statement": "Position returns what SetPosition set and Angle what SetAngle set; WorldToLocal and LocalToWorld are mutual inverses preserving distances; SetAngle turns about the centre of gravity; the velocity at a local point equals the velocity at its world position; all hold after any history of setters and integration steps.", "quantifier": "all positions, angles, centres of gravity, histories of setters", "why_tests_cant": "Continuous domain and unbounded histories.", "anchors": ["body.go: SetPosition, Position, SetAngle, SetTransform, WorldToLocal, LocalToWorld, VelocityAtLocalPoint, VelocityAtWorldPoint, BodyUpdatePosition"]}
{"id": "C34", "title": "Contact impulses conserve momentum", "statement": "Solving a contact never changes the total linear momentum of the two bodies, nor their total angular momentum when the two contact points coincide; infinite-mass bodies are not moved.", "quantifier": "all masses, velocities, contact geometry, numbers of iterations", "why_tests_cant": "Continuous domain, iterated.", "anchors": ["arbiter.go: applyImpulses, applyImpulse, applyBiasImpulses, ApplyImpulse, ApplyCachedImpulse"]}
{"id": "C35", "title": "Contacts only push, friction stays in the cone", "statement": "After any number of solver iterations each contact's accumulated normal and correction impulses are non-negative and the accumulated friction impulse is at most the friction coefficient times the normal impulse in absolute value.", "quantifier": "all velocities, masses and numbers of iterations, non-negative friction", "why_tests_cant": "Holds for every iteration count.", "anchors": ["arbiter.go: ApplyImpulse"]}
{"id": "C36", "title": "A contact iteration meets its target", "statement": "If clamping does not act, after one iteration the bodies' relative normal velocity at the contact equals minus the stored bounce velocity; if it does act the impulse is zero and the bodies are separating at least that fast.", "quantifier": "all bodies with finite mass and contact geometry", "why_tests_cant": "Continuous domain.", "anchors": ["arbiter.go: ApplyImpulse, PreStep", "everything.go: kScalar, kScalarBody, normalRelativeVelocity"]}
{"id": "C37", "title": "Joint impulses respect MaxForce", "statement": "After any number of iterations the impulse reported by pin, slide, pivot, groove, gear, ratchet, rotary limit and motor joints is at most MaxForce times the time step.", "quantifier": "all joint states, velocities, iteration counts", "why_tests_cant": "Holds for every iteration count.", "anchors": ["pin_joint.go, slide_joint.go, pivot_joint.go, groove_joint.go, gear_joint.go, ratchet_joint.go, rotary_limit_joint.go, simple_motor.go: ApplyImpulse, GetImpulse"]}
{"id": "C38", "title": "Joints conserve momentum", "statement": "Every joint iteration and warm start conserves the total linear momentum of its two bodies; purely angular joints with unit ratio conserve total spin angular momentum.", "quantifier": "all joint states", "why_tests_cant": "Continuous domain, iterated.", "anchors": ["*_joint.go, simple_motor.go, damped_spring.go, damped_rotary_spring.go: ApplyImpulse, ApplyCachedImpulse"]}
{"id": "C39", "title": "Unclamped joint iterations meet their constraint velocity", "statement": "If the force limit does not act, one iteration makes the constrained relative velocity equal to the joint's correction velocity: along the rod for pin and slide joints, as a full vector for pivot joints, as the relative rate for motors, gears, and for rotary limits and ratchets outside their limits.", "quantifier": "all finite-mass body pairs and geometry", "why_tests_cant": "Continuous domain.", "anchors": ["*_joint.go ApplyImpulse, PreStep", "everything.go: kScalar, kTensor"]}
{"id": "C40", "title": "Limit joints act only outside their limits and only inwards", "statement": "Slide joints, rotary limits and ratchets apply no impulse while inside their limits, and outside apply impulses only in the direction back to the allowed range.", "quantifier": "all joint states and velocities", "why_tests_cant": "Continuous domain.", "anchors": ["slide_joint.go, rotary_limit_joint.go, ratchet_joint.go: PreStep, ApplyImpulse"]}
{"id": "C41", "title": "Affine transforms form a group action", "statement": "Transform.Mult is composition, Inverse is the two-sided inverse of every invertible transform, RigidInverse of every rigid one, Wrap conjugates, and Ortho maps its box to the unit square [-1,1]².", "quantifier": "all transforms and points", "why_tests_cant": "Continuous domain.", "anchors": ["transform.go: Mult, Inverse, RigidInverse, Apply, ApplyVector, Wrap, WrapInverse, Ortho, NewTransformRigid"]}
{"id": "C42", "title": "Transformed boxes contain the image", "statement": "Transform.BB(bb) is the smallest box containing the image of every point of bb.", "quantifier": "all transforms, boxes and points", "why_tests_cant": "Continuous domain.", "anchors": ["transform.go: BB"]}
{"id": "C43", "title": "Shape bounding boxes contain the shape", "statement": "The box cached for a circle, segment or polygon under any body transform contains every point of the shape, so overlapping shapes always have intersecting boxes.", "quantifier": "all shapes, transforms and points", "why_tests_cant": "Continuous domain, any number of vertexes.", "anchors": ["circle.go: CacheData", "segment.go: CacheData", "polyshape.go: CacheData"]}
{"id": "C44", "title": "Circle collision is exact", "statement": "Two circles are reported as colliding exactly when the distance of their centres is less than the sum of their radii; the normal is a unit vector pointing from the first to the second; the contact depth is distance minus the sum of radii; a circle and a segment collide exactly when the circle's centre is nearer to the segment than the sum of radii, apart from end caps switched off by neighbours.", "quantifier": "all centres, radii, segments", "why_tests_cant": "Continuous domain.", "anchors": ["collision.go: CircleToCircle, CircleToSegment, CollisionInfo.PushContact"]}
{"id": "C45", "title": "Closest point computation is exact on convergence", "statement": "When the separation search for convex shapes stops because its support test finds no further progress, the reported distance is the exact minimum distance between the convex shapes (or the exact separation along the reported normal when overlapping), and the two reported points belong to the shapes.", "quantifier": "all pairs of convex polygons, segments and points, any number of vertexes", "why_tests_cant": "Continuous domain and iterative search.", "anchors": ["collision.go: GJK, GJKRecurse, EPARecurse, ClosestPoints, Support", "everything.go: checkAxis, closestT, lerpT, pointGreater"]}
{"id": "C46", "title": "Nearest point queries are exact", "statement": "PointQuery on circles and segments returns the nearest surface point and its signed distance; PointQueryNearest returns a shape at minimal distance among accepted shapes within the maximum distance, or no shape when there is none.", "quantifier": "all shapes, points, filters, maximal distances", "why_tests_cant": "Continuous domain and arbitrary sets of shapes and visiting orders.", "anchors": ["circle.go: PointQuery", "segment.go: PointQuery", "polyshape.go: PointQuery", "space.go: PointQueryNearest, NearestPointQueryNearest"]}
{"id": "C47", "title": "Circle ray cast is exact", "statement": "The circle segment query reports the smallest fraction in [0,1] at which the moving circle first touches, with the unit normal there, or no hit when there is none.", "quantifier": "all circles and segments starting outside", "why_tests_cant": "Continuous domain, quadratic roots.", "anchors": ["circle.go: CircleSegmentQuery"]}
{"id": "C48", "title": "Shape collision distances are negative on overlap", "statement": "ShapesCollideInfo reports contact distances which are negative or zero for overlapping shapes whatever the order of the two arguments.", "quantifier": "all shape pairs in both orders", "why_tests_cant": "Depends on the class order of the arguments.", "anchors": ["collision.go: ShapesCollideInfo, Collide"]}
{"id": "C49", "title": "ShapeQuery reports whether anything was hit", "statement": "ShapeQuery returns true exactly when at least one accepted non-sensor shape overlaps the (non-sensor) argument, independent of traversal order.", "quantifier": "all sets of shapes and traversal orders", "why_tests_cant": "Depends on visiting order.", "anchors": ["space.go: ShapeQuery"]}
{"id": "C50", "title": "Integration rules", "statement": "The default velocity update leaves kinematic bodies unchanged, adds exactly gravity, damping and accumulated forces for others, and clears the accumulated forces; the default position update moves by velocity plus correction velocity times dt and clears the corrections; n updates without damping telescope to the closed form.", "quantifier": "all bodies, any number of steps", "why_tests_cant": "Continuous domain, any number of steps.", "anchors": ["body.go: BodyUpdateVelocity, BodyUpdatePosition"]}
{"id": "C51", "title": "A step of zero time does nothing", "statement": "Step(0) changes nothing and calls no callback.", "quantifier": "all space states", "why_tests_cant": "All states.", "anchors": ["space.go: Step"]}
{"id": "C52", "title": "Convex hull is correct", "statement": "ConvexHull with zero tolerance returns a subset of the input points, in counter-clockwise order, such that every input point lies inside or on the returned polygon.", "quantifier": "all lists of points of any length", "why_tests_cant": "In-place recursive partitioning of arrays of any length.", "anchors": ["polyshape.go: convexHull, loopIndexes, QHullReduce, QHullPartition"]}
{"id": "C53", "title": "Polyline collection preserves every edge", "statement": "After collecting any sequence of directed segments into a PolyLineSet, the multiset of consecutive vertex pairs over all lines is exactly the multiset of collected segments, and no vertex pair is invented.", "quantifier": "all sequences of segments", "why_tests_cant": "Joining depends on all previous segments.", "anchors": ["polyline.go: PolyLineCollectSegment, Join, FindEnds, FindStarts, Push, Enqueue"]}
{"id": "C54", "title": "Curve simplification is total and selects vertexes", "statement": "SimplifyCurves and SimplifyVertexes never crash on a polyline of at least two vertexes and return a subsequence of the vertexes keeping both ends.", "quantifier": "all polylines and tolerances", "why_tests_cant": "Recursive on arbitrary input.", "anchors": ["polyline.go: SimplifyCurves, SimplifyVertexes, DouglasPeucker, IsShort"]}
{"id": "C55", "title": "Marching squares contours are watertight", "statement": "For every grid of samples and threshold, every interior grid edge crossed by the contour is entered by exactly one emitted segment from one side and left by exactly one on the other at the same point, so contours close except at the border.", "quantifier": "all sample grids of any size, both soft and hard variants", "why_tests_cant": "All sign patterns over grids of any size.", "anchors": ["utils/march/march.go: MarchCells, MarchCellSoft, MarchCellHard, MarchSoft, MarchHard"]}
{"id": "C56", "title": "Marching squares visits each cell once with its own samples", "statement": "Each grid cell is processed exactly once with exactly the samples at its four corners, and each grid point is sampled a bounded number of times.", "quantifier": "all grid sizes and sample functions", "why_tests_cant": "Rolling row buffer reuse over any grid size.", "anchors": ["utils/march/march.go: MarchCells"]}
{"id": "C57", "title": "Spatial hash queries are complete and non-repeating", "statement": "With the spatial hash, a box query reports every shape whose cell range meets the query's cell range (hence every shape with an intersecting box) and no shape twice; the collision query reports each pair of shapes sharing a cell exactly once.", "quantifier": "all cell sizes, table sizes, histories, boxes", "why_tests_cant": "Hash collisions among cells and stale stamps over arbitrary histories.", "anchors": ["space_hash.go: Insert, Remove, Query, ReindexQuery, queryHelper, hashHandle, removeOrphanedHandles"]}
{"id": "C58", "title": "Spatial hash handles are not recycled while referenced", "statement": "A shape handle is returned to the pool only when neither the handle set nor any cell refers to it.", "quantifier": "all histories of insert, remove, reindex and query", "why_tests_cant": "Reference counts over unbounded histories.", "anchors": ["space_hash.go: Handle.retain, Handle.release, hashHandle, Remove, removeOrphanedHandles, clearTableCell"]}
{"id": "C59", "title": "Contact point sets round-trip", "statement": "SetContactPointSet(ContactPointSet()) leaves the arbiter unchanged, swapped or not, and the points read are the world positions of the contact on each body.", "quantifier": "all arbiters of collisions that have not ended, with any number of contacts; for ended collisions (inside Separate) the exact behaviour is stated separately", "why_tests_cant": "Continuous domain; both swap states.", "anchors": ["arbiter.go: ContactPointSet, SetContactPointSet"]}
{"id": "C60", "title": "User data reaches every callback", "statement": "Every collision callback of a handler (Begin, PreSolve, PostSolve, Separate) receives that handler's UserData.", "quantifier": "all handlers and user data", "why_tests_cant": "Identity of an opaque value through every call path.", "anchors": ["space.go: Step, SpaceCollideShapesFunc", "hashset_arbiter.go: SpaceArbiterSetFilter, CachedArbitersFilter", "arbiter.go: CallWildcardPostSolveA"]}
{"id": "C61", "title": "Moment and area formulas agree", "statement": "MomentForPoly is translation consistent (parallel axes) and agrees with MomentForBox on boxes; areas and centroids are translation equivariant and AreaForPoly of a box is width times height; MomentForCircle2 agrees with MomentForCircle.", "quantifier": "all polygons of any number of vertexes, all masses", "why_tests_cant": "Continuous domain, any number of vertexes.", "anchors": ["shape_factory.go: MomentForBox, MomentForPoly, MomentForCircle, MomentForCircle2, AreaForPoly, CentroidForPoly"]}
{"id": "C62", "title": "SetEndpoints is consistent with construction", "statement": "Setting a segment's endpoints to some values gives the same segment as constructing it with these endpoints.", "quantifier": "all endpoints", "why_tests_cant": "Continuous domain.", "anchors": ["segment.go: SetEndpoints, NewSegmentShape"]}
{"id": "C63", "title": "Closest point on a segment is exact", "statement": "The closest point on a segment lies on the segment and no point of the segment is nearer.", "quantifier": "all points and segments", "why_tests_cant": "Continuous domain.", "anchors": ["everything.go: closestPointOnSegment, closestT, lerpT, clamp01"]}
{"id": "C64", "title": "Warm starting matches contacts by feature", "statement": "When a collision persists, each new contact takes over the accumulated impulses of the old contact with the same feature hash and starts from zero otherwise; a first contact applies no cached impulse.", "quantifier": "all old and new contact lists", "why_tests_cant": "All combinations of hashes.", "anchors": ["arbiter.go: Update, ApplyCachedImpulse"]}
{"id": "C65", "title": "Switching the broad phase keeps all shapes", "statement": "UseSpatialHash keeps exactly the same shapes in the static and in the dynamic index.", "quantifier": "all sets of shapes", "why_tests_cant": "All sets.", "anchors": ["space.go: UseSpatialHash"]}
{"id": "C66", "title": "SetStaticBody replaces the static body", "statement": "On a space, SetStaticBody(body) makes body the space's static body.", "quantifier": "all spaces", "why_tests_cant": "All states.", "anchors": ["space.go: SetStaticBody, NewSpace"]}
{"id": "C67", "title": "Reindexing a shape makes queries see its new place", "statement": "After ReindexShape(shape) on an unlocked space, box queries find the shape by its current bounding box.", "quantifier": "all histories, all moves", "why_tests_cant": "Depends on tree state.", "anchors": ["space.go: ReindexShape", "bb_tree.go: ReindexObject, LeafUpdate"]}
{"id": "C68", "title": "Damped springs dissipate", "statement": "The damping impulse of a damped spring or damped rotary spring never reverses and never increases the relative velocity it opposes beyond its target: the deviation from the target rate is multiplied by a factor between 0 and 1.", "quantifier": "all spring states with non-negative damping", "why_tests_cant": "Continuous domain.", "anchors": ["damped_spring.go: PreStep, ApplyImpulse", "damped_rotary_spring.go: PreStep, ApplyImpulse"]}
{"id": "C69", "title": "Bodies linked by sleeping are found consistently", "statement": "Following the sleeping links from any sleeping body, its group root lists every member of the group exactly once, and IsSleeping is true exactly for the members of the listed groups.", "quantifier": "all histories of sleeping and waking", "why_tests_cant": "Intrusive linked lists over unbounded histories.", "anchors": ["body.go: ComponentAdd, ComponentRoot, IsSleeping, Activate", "space.go: ProcessComponents"]}
{"id": "C70", "title": "Solving a whole step's impulses conserves total momentum", "statement": "When every collision and every joint in the space connects two bodies of finite mass, warm starting and any number of solver iterations, over any number of collisions and joints that share bodies in any way, leave the total linear momentum of the space exactly as it was.", "quantifier": "all spaces, all numbers of bodies, arbiters, joints and iterations", "why_tests_cant": "Unbounded networks of bodies over a continuous domain.", "anchors": ["space.go: Step", "arbiter.go: ApplyCachedImpulse, ApplyImpulse", "constraint.go: Constrainer"]}
{"id": "C71", "title": "A joint reports the impulse it delivered", "statement": "With a steady time step, the value of GetImpulse after a step is the magnitude of the momentum (or, for angular joints, the spin) which the joint gave its second body in that step, through warm start and all iterations.", "quantifier": "all joints of all kinds, all interleavings with other joints and contacts, any number of iterations", "why_tests_cant": "Unbounded iterations over a continuous domain.", "anchors": ["*_joint.go, damped_*spring.go: GetImpulse, ApplyCachedImpulse, ApplyImpulse"]}
{"id": "C72", "title": "TotalImpulse is the momentum exchanged", "statement": "With a steady time step, Arbiter.TotalImpulse after a step is exactly the momentum which the collision gave the handler's first body in that step.", "quantifier": "all collisions with any number of contacts, all interleavings with other constraints, any number of iterations", "why_tests_cant": "Unbounded iterations over a continuous domain.", "anchors": ["arbiter.go: TotalImpulse, Count, ApplyCachedImpulse, ApplyImpulse"]}
{"id": "C73", "title": "Combined surface properties", "statement": "A collision's restitution and friction are the products of the two shapes', non-negative friction staying non-negative, and its surface velocity is the tangential part of the difference of the shapes' surface velocities.", "quantifier": "all arbiters, shapes and unit normals", "why_tests_cant": "Continuous domain.", "anchors": ["arbiter.go: Update"]}
{"id": "C74", "title": "Cached pairs of the broad phase are exact", "statement": "For any history of remembering overlapping pairs of leaves and forgetting all pairs of a leaf that moved or was removed, each leaf's pair list holds exactly the pairs remembered and not forgotten since, newest first; pairs recycled through the pool never end up in two lists or twice.", "quantifier": "all histories, any number of leaves and pairs", "why_tests_cant": "Doubly linked lists threaded through two leaves and recycled through a pool.", "anchors": ["bb_tree.go: PairInsert, PairsClear, Thread.Unlink, PairFromPool, RecyclePair"]}
{"id": "C75", "title": "Collisions never pull", "statement": "Over a whole step with a steady time step, the momentum a collision gives its second body has no component against the collision normal, so contacts only push.", "quantifier": "all collisions with any number of contacts, all interleavings with other constraints, any positive number of iterations", "why_tests_cant": "Individual iterations do pull back; only the sum over warm start and all iterations is one-sided, over a continuous domain.", "anchors": ["arbiter.go: Update, ApplyCachedImpulse, ApplyImpulse"]}
{"id": "C76", "title": "Arbiters given back for reuse are no longer referenced", "statement": "Whenever an arbiter has been returned to the pool of arbiters for reuse, it is in no body's contact list, not in the list of collisions to solve and not in the cache; so reusing it changes no other collision. This holds for collision persistence of at least one step.", "quantifier": "all sequences of allowed calls on a space, all patterns of touching", "why_tests_cant": "A dangling reuse shows up only when the pool is hit while another structure still holds the old pointer; it corrupts a different pair later.", "anchors": ["hashset_arbiter.go:34-59", "space.go:1068-1130", "space.go:216-251"]}
{"id": "C77", "title": "EachConstraint enumerates each joint exactly once", "statement": "EachConstraint calls its function exactly once for each joint that was added and not removed.", "quantifier": "all sequences of allowed calls on a space, including bodies falling asleep", "why_tests_cant": "Joints are moved between the space's list and sleeping bodies; only histories with sleep show the difference.", "anchors": ["space.go:922-930", "space.go:216-251"]}
{"id": "C78", "title": "No allowed sequence of calls reaches a panic, a fatal error or an endless loop", "statement": "Starting from a new space, any sequence of calls each of which meets its documented condition (not already in the space, in the space, awake where required) returns normally: no assertion fires, no nil pointer is followed, no list walk fails to end.", "quantifier": "all finite sequences of calls, all collision patterns in each step", "why_tests_cant": "The internal checks depend on combinations of sleep, contact and removal of which there are unboundedly many.", "anchors": ["space.go:162-251", "space.go:448-646", "body.go:374-428", "arbiter.go:70-95"]}
{"id": "C79", "title": "Segment shape ray cast is exact", "statement": "A ray cast (with radius) against a segment shape from outside reports the smallest fraction at which the moving circle touches the rounded segment, with a unit normal there, and reports a hit whenever it touches before the end.", "quantifier": "all segments, radii, starts outside, ends", "why_tests_cant": "Continuous domain; the failing starts are level with the segment.", "anchors": ["segment.go: SegmentQuery", "shape.go: SegmentQuery"]}
{"id": "C80", "title": "Polygon ray cast is exact", "statement": "A ray cast (with radius) against a strictly convex rounded polygon from outside reports the smallest fraction at which the moving circle touches, with a unit normal, and reports a hit whenever it touches before the end.", "quantifier": "all strictly convex polygons of any number of vertexes, radii, starts outside, ends", "why_tests_cant": "Continuous domain, any number of vertexes.", "anchors": ["polyshape.go: SegmentQuery", "circle.go: CircleSegmentQuery"]}
{"id": "C81", "title": "Balanced segments are collected into closed polylines", "statement": "If every point starts at most one of the collected segments and ends as many as it starts, then every polyline of the set is closed, in whatever order the segments are collected.", "quantifier": "all finite sequences of segments, all orders", "why_tests_cant": "The number of orders is factorial in the number of segments, and lines are joined at both ends depending on the order.", "anchors": ["polyline.go: CollectSegment, Join, FindEnds, FindStarts"]}
{"id": "C82", "title": "Curve simplification drops only vertexes within tolerance", "statement": "Every vertex SimplifyCurves leaves out is within the tolerance of the line through the kept vertexes before and after it, and the documented bound holds: the result is never farther than the tolerance from the polyline.", "quantifier": "all polylines, tolerances", "why_tests_cant": "Continuous domain and unbounded recursion.", "anchors": ["polyline.go: DouglasPeucker, SimplifyCurves"]}
{"id": "C83", "title": "Contours that do not reach the border are closed", "statement": "If no sample on the border of the grid is above the threshold, collecting the segments of MarchHard gives closed polylines only; so does MarchSoft if no sample equals the threshold.", "quantifier": "all sampling functions, boxes of positive size, grids of at least two by two samples, thresholds", "why_tests_cant": "Unbounded grids; the collected lines depend on the order of the cells and on saddles crossed twice.", "anchors": ["utils/march/march.go: MarchCells, MarchCellSoft, MarchCellHard", "polyline.go: CollectSegment"]}
{"id": "C84", "title": "Soft contours keep the solid on their left", "statement": "For every cell and threshold, no corner at or below the threshold is strictly on the left of a segment MarchCellSoft emits, and unless the cell is a saddle no corner above it is strictly on the right.", "quantifier": "all cells of positive size, sample values, thresholds", "why_tests_cant": "Sixteen cases over continuous sample values, including samples at the threshold.", "anchors": ["utils/march/march.go: MarchCellSoft, Seg, Midlerp"]}
{"id": "C85", "title": "The solver does not create kinetic energy", "statement": "Any number of solver iterations over contacts without bounce and joints that ask for no correction never raise the total kinetic energy of the bodies; a single contact with restitution e leaves with e times the approach speed and loses exactly the share 1 - e^2 of the energy of the approach.", "quantifier": "all numbers of bodies, contacts, joints and iterations, all masses, arms, normals and velocities", "why_tests_cant": "A property of every sequence of impulses on bodies shared in any way; the joints and cases that break it need particular arms and accumulated impulses.", "anchors": ["arbiter.go: ApplyImpulse, PreStep", "space.go: Step, the iteration loop", "pinjoint.go, simplemotor.go, gearjoint.go, groovejoint.go, pivotjoint.go: ApplyImpulse"]}
{"id": "C86", "title": "Overlap is corrected by a share of its excess and never past the slop", "statement": "The correction speed PreStep asks for is never negative, is zero while the overlap is within the slop, and beyond it removes the share 1 - CollisionBias^dt of the excess; an iteration makes the contact points part at exactly that speed or, without pushing, faster; correction impulses conserve the angular momentum of the correction velocities, and for a head-on contact any number of iterations leave an excess of CollisionBias^dt times the old one.", "quantifier": "all contacts, bodies, time steps, biases in [0,1], slops and numbers of iterations and contacts", "why_tests_cant": "Continuous inputs and any number of iterations; the correction velocities are invisible outside the step.", "anchors": ["arbiter.go: PreStep, ApplyImpulse, applyBiasImpulses", "space.go:587"]}
{"id": "C87", "title": "Stored inverse masses match the masses", "statement": "After any history of calls a dynamic body has positive mass and moment and stores their inverses, any other body has infinite ones and stores zero, so that no contact moves it; SetType gives the type asked for. SetMass on a static body breaks this: it stays static and is moved by impulses.", "quantifier": "all histories of public calls on a body with positive finite masses", "why_tests_cant": "Unbounded histories mixing SetMass, SetMoment, SetType and mass accumulation.", "anchors": ["body.go: NewBody, NewStaticBody, NewKinematicBody, SetMass, SetMoment, SetType, AccumulateMassFromShapes, Type"]}
{"id": "C88", "title": "New joints disturb nothing that already meets their demand", "statement": "A new joint holds no impulse; if the two bodies are at rest and their configuration meets what the joint asks for, stated in world coordinates, then any sequence of PreStep, ApplyCachedImpulse and ApplyImpulse leaves both bodies unchanged. New pin and ratchet joints and pivot joints built at a pivot always are met.", "quantifier": "all ten kinds of joints, all placed bodies with any centre of gravity, all sequences of phases", "why_tests_cant": "Unbounded sequences of solver phases over continuous configurations.", "anchors": ["constraint.go: NewConstraint", "pin_joint.go, slide_joint.go, pivot_joint.go, groove_joint.go, gear_joint.go, ratchet_joint.go, rotary_limit_joint.go, simple_motor.go, damped_spring.go, damped_rotary_spring.go: New*, PreStep, ApplyCachedImpulse, ApplyImpulse"]}
{"id": "C89", "title": "Exactly the right pairs reach the narrow phase", "statement": "After any history of shapes entering, moving in and leaving the broad phase and of joints being added and removed, a step hands to the narrow phase exactly the pairs of different shapes, not both static, that belong to different bodies, have filters accepting each other, have overlapping boxes, and whose bodies no joint bars from colliding; each such pair exactly once.", "quantifier": "all histories of the bounding box tree and of the joint lists, all filters, boxes and body assignments", "why_tests_cant": "Unbounded histories of two linked data structures; a single missed or doubled pair depends on tree shape, stamps and list order.", "anchors": ["space.go: SpaceCollideShapesFunc, QueryReject (1068-1147)", "bb_tree.go: ReindexQuery", "shape_filter.go: Reject"]}
{"id": "C90", "title": "Which body of a contact or joint comes first does not matter", "statement": "Exchanging the two bodies of any of the collisions and of any of the joints other than groove joints and gears of ratio different from 1, with the normals, anchors and limits exchanged accordingly, leaves the state of every body after a whole solve the same, and the reported total impulses and joint impulses the same except for the sign of the rotary spring's.", "quantifier": "all solver states, any subset of the links exchanged, all numbers of iterations", "why_tests_cant": "Exact equality over any number of links and iterations; the code treats the two bodies in separate expressions with opposite signs.", "anchors": ["arbiter.go: PreStep, ApplyCachedImpulse, ApplyImpulse", "constraint.go and the joint files: PreStep, ApplyCachedImpulse, ApplyImpulse, GetImpulse", "space.go: Step (573-620)"]}
{"id": "C91", "title": "The simulation is the same seen from any frame", "statement": "Displacing and turning a whole world, with its gravity, and running any number of steps gives the displaced and turned result; when velocities are not damped, so does giving the whole world a common velocity. A gear of ratio different from 1 depends on absolute angles.", "quantifier": "all worlds, contacts and joints, all displacements, turns and velocities, any number of steps with any collisions", "why_tests_cant": "Symmetry over continuous transformations and unbounded runs.", "anchors": ["space.go: Step (540-631)", "body.go: UpdatePosition, UpdateVelocity", "arbiter.go and the joint files: PreStep, ApplyCachedImpulse, ApplyImpulse"]}
{"id": "C92", "title": "The centre of mass of an isolated system moves as a single particle", "statement": "For any number of dynamic bodies with any collisions and joints among them, over any number of steps the centre of mass and the total momentum follow the motion of a single particle of their total mass under gravity, damping and the sum of the applied forces: contacts, friction, overlap correction, warm starting and joints never move it. Without gravity, forces and damping it moves uniformly.", "quantifier": "all numbers of bodies, all contacts and joints among them, all sequences of steps of any lengths including 0", "why_tests_cant": "Unbounded numbers of bodies, links and steps; an exact law, where tests see rounding.", "anchors": ["space.go: Step (540-631)", "body.go: UpdatePosition, UpdateVelocity", "arbiter.go: ApplyCachedImpulse, ApplyImpulse, applyBiasImpulses", "joint files"]}
{"id": "C93", "title": "Ray casts through the spatial hash find what they should", "statement": "A ray cast through the spatial hash ends, reports no shape twice, shortens the ray to the least fraction the callback returns, and reports every shape whose box contains a point of the ray before that fraction; so with callbacks whose hits lie in the boxes it finds the nearest of all shapes, unless the ray starts on a grid line going down an axis. There it skips a cell and misses; it may also miss a box touched only in a corner of the grid.", "quantifier": "all histories of the hash, all cell sizes and table sizes, all segments with a good start, all callbacks", "why_tests_cant": "Continuous segments against an unbounded grid; misses need exact grid alignment or hash collisions.", "anchors": ["space_hash.go: SegmentQuery, segmentQueryHelper (225-319)", "space.go: queryFirst"]}
{"id": "C94", "title": "The hash set's pooled bins never get mixed up", "statement": "With its bins in memory, linked by pointers and recycled through a free list refilled 1024 at a time, the hash set shows every client exactly what a set of chains shows: no walk along the links is endless, no emptied bin is compared or handed to a callback, and at any time no bin is twice in a chain, in two chains, or in a chain and in the free list.", "quantifier": "all histories of Insert, Remove, Find, Each, Filter and Count; all equality tests and hash functions", "why_tests_cant": "A wrong link in Remove, Filter, resize or the pool shows only after particular interleavings of removal, reuse and growth.", "anchors": ["hashset.go: 6-188", "everything.go:11"]}
{"id": "C95", "title": "Constructed shapes are what the queries assume", "statement": "A segment made with different ends, moved with its body, has its unit normal at right angles to it on its right (SetEndpoints puts it on the left); a box of positive size is exactly the points within half its width and height, and a convex counter-clockwise outline with outward unit normals wherever its body is; NewPolyShape on any points and any transform, mirroring ones too, yields their convex hull, and a strictly convex outline when no three are in line.", "quantifier": "all lawful math functions, all rigid body transforms, all points, transforms, sizes and radii", "why_tests_cant": "All positions and rotations; winding errors under mirroring show only for particular inputs.", "anchors": ["shape_factory.go: 17-129", "segment.go: 14-39, 137-147", "polyshape.go: 17-43, 150-173"]}
{"id": "C96", "title": "A body's mass follows its shapes", "statement": "After any history of attaching, removing and reshaping shapes, setting masses and densities, changing the body's type and moving it, a dynamic body with a shape that has mass has exactly the mass, centre of gravity, moment and inverses of its shapes together; each shape's area, moment and centre are those of its present geometry unless the exported SetVerts was used, which leaves them stale; Density returns what SetDensity set. Removing the last shape with mass leaves the body with mass zero.", "quantifier": "all histories, all shapes, all non-negative masses", "why_tests_cant": "The recalculation is skipped for massless shapes and other body types; only some interleavings would reveal a missing one.", "anchors": ["body.go: 230-258, 436-441, 546-560", "shape.go: 94-106", "circle.go: 53-61", "segment.go: 115-147", "polyshape.go: 150-182"]}
{"id": "C97", "title": "The nodes of a bounding box tree in memory are the tree", "statement": "After any history of Insert of absent shapes, Remove of present ones and LeafUpdate, the nodes in memory (parent, a, b pointers, free list linked by parent) hold exactly the tree the value model computes: no nil pointer is used, no walk runs forever, every child points back to its parent, the root has no parent, no node is in the tree twice or both in the tree and on the free list, and the table maps each shape to its leaf. The walk up from a leaf meets its siblings in order and side, and a query from the root calls back for the same shapes in the same order. Inserting a shape twice breaks this.", "quantifier": "all histories of calls of any length, all shapes, boxes and stamps, all trees, all query boxes", "why_tests_cant": "Which nodes are recycled and reused, and how deep leaves sit, depends on the whole history; a stale parent pointer only shows when that node is later removed or climbed from.", "anchors": ["bb_tree.go:101-112", "bb_tree.go:191-254", "bb_tree.go:296-312", "bb_tree.go:364-407", "bb_tree.go:417-450", "bb_tree.go:482-502"]}
{"id": "C98", "title": "Balls and rods get contacts exactly when they overlap", "statement": "In a world of circles and segments made by their constructors, on bodies placed by any rigid motions, where of any two shapes that may meet at least one is a circle, a step finds contacts for exactly those pairs of different shapes, not both static, whose discs and thickened segments overlap in the world (some two points of the middles nearer than the sum of the radii), that are on different bodies, whose filters accept each other and whose bodies have no joint that bars collisions; each such pair exactly once, whatever history of insertions, removals and movements the broad phase has seen and whatever joints were added and removed. Collide does not panic for them in either order.", "quantifier": "all histories of both trees and of the joints, all rigid placements, radii and positions, filters and orders of the walk", "why_tests_cant": "it joins the fat boxes and cached pairs of the trees, the filters, the joint lists and the geometry; a missed pair shows only for a particular history and placement", "anchors": ["space.go:1068-1083", "space.go:1133-1147", "space.go:1269-1271", "collision.go:88-141", "collision.go:501-520", "bb_tree.go"]}
{"id": "C99", "title": "Units of measure and handedness do not matter", "statement": "Measuring lengths, masses and times in other units, and optionally looking at the world in a mirror, changes nothing about how it moves: if every number given to the solver (masses, moments, positions, velocities, forces, contacts, the settings and working values of all ten joints, gravity, slop, time step, and the shares of error and speed left per unit of time) is converted to the new units, then after any number of steps every number the solver has computed is the conversion of the number it would have computed in the old units. In particular no step compares or adds quantities of different dimensions, and no rule prefers clockwise to anticlockwise.", "quantifier": "all positive units of length, mass and time, both hands, all lists of steps with their collisions and awake bodies, all joints with non-negative limits, all frictions at least zero, any number of bodies and iterations", "why_tests_cant": "A test compares a scene with one rescaled copy; a formula with a missing time step or length agrees whenever that unit is 1, and the claim is about every combination of units and every scene.", "anchors": ["arbiter.go:105-183", "space.go:540-631", "body.go:621-641", "pin_joint.go:46-87", "slide_joint.go:33-90", "pivot_joint.go:45-81", "groove_joint.go:31-96", "gear_joint.go:27-66", "ratchet_joint.go:28-85", "rotary_limit_joint.go:22-76", "simple_motor.go:21-53", "damped_spring.go:41-92", "damped_rotary_spring.go:30-65"]}
{"id": "C100", "title": "Contacts of rods and polygons lie on both shapes, face each other and show the exact depth", "statement": "For two rods or strictly convex polygons (rounded or not) whose closest-point search gave a true answer (a point of each skeleton, exactly d apart along the unit normal n, with no two points of the skeletons less than d apart along n): if d exceeds the sum of the radii nothing is reported; otherwise the reported normal is n, every reported contact is made of a point of the first skeleton moved by its radius along n and a point of the second skeleton moved by its radius against n, these two points differ only along n and do not show a gap, no contact is deeper than d minus the radii, and one contact is exactly that deep. The search's answer is true whenever GJK stops by itself with the shapes apart, and whenever EPA stops by itself with a normal.", "quantifier": "all rods with different ends and without neighbours (seen end-on: with the second end in front, or over a shape that goes on to the one side), all strictly convex polygons with outward unit normals (all boxes made by the constructor under all rigid motions), all radii, normals, distances and starting guesses", "why_tests_cant": "The clamped projections must agree for every relative position of two edges (four ways to overlap, parallel or not, either side as the farthest), and the choice of the side nearest the normal must keep the farthest point for every polygon.", "anchors": ["collision.go:143-164 SegmentToSegment", "collision.go:179-196 SegmentToPoly", "collision.go:198-209 PolyToPoly", "collision.go:267-311 SupportEdgeForSegment, SupportEdgeForPoly", "collision.go:314-353 ContactPoints"]}
{"id": "C101", "title": "EPA reports the shortest way to part two overlapping shapes", "statement": "Whatever cached guess the search starts from, when GJK hands over to EPA: moving the second skeleton by no more than the distance of the two reported points, in any direction, leaves the skeletons with a common point. This holds also when EPA gives up after its last round. When EPA stops by itself with a normal, the reported points lie exactly one below the other along the normal, and moving the second skeleton by anything more than the reported depth along the normal parts them: the depth is the smallest possible.", "quantifier": "all pairs of discs, rods and polygons with at most 256 corners inside a box small against MaxFloat64, all starting guesses, all directions and lengths of the move", "why_tests_cant": "The bound is over every direction of every pair of shapes, and the chain of points EPA keeps need be neither convex nor star-shaped when it starts from a stale guess; tests only see particular pairs from fresh guesses.", "anchors": ["collision.go:420-497", "collision.go:382-415"]}
{"id": "C102", "title": "Balls, rods and polygons get contacts exactly when they touch", "statement": "After any history of inserts, moves and removals in the broad phase and of joints, one step in a world of balls, rods and strictly convex polygons makes contacts for exactly the pairs of shapes, not both static, that touch (some two points of their skeletons are no farther apart than the sum of the radii; strictly nearer for a ball with a ball or rod), lie on different bodies, have filters accepting each other and no joint barring them; each pair once and without panic. For pairs needing the closest-point search it is assumed that the search stops by itself with a usable answer and that a rod parallel to the normal found has its second end in front or stands over a shape that goes on to the one side. Without the last assumption the claim is false: a rod standing end-on over the end of a box's side gets no contact though they overlap.", "quantifier": "all worlds, histories, placements, shapes up to 256 corners, cached guesses, filters and joints", "why_tests_cant": "Tests look at a few placements; the claim needs soundness of the broad phase, exactness of the search and completeness of the clipping at once, for all of them, and its failure needs an exact alignment.", "anchors": ["space.go:1066-1130", "collision.go:88-209", "collision.go:314-353", "collision.go:501-520"]}
{"id": "C103", "title": "Reported areas are areas", "statement": "The area every shape reports in its mass information is the Lebesgue measure of the set of points it covers: the disc of a circle, the capsule of a segment and a strictly convex polygon with its rounding. AreaForCircle is the area between the two circles, whichever of the radii is larger.", "quantifier": "all circles, segments and strictly convex counter-clockwise polygons with any number of vertexes, all radii from 0 on, over the real numbers", "why_tests_cant": "A test compares numbers with numbers computed by the same formula; that the formula is the measure of the region holds for all shapes only by integration (Steiner's formula for the rounding).", "anchors": ["shape_factory.go:200-224", "circle.go:40-47", "segment.go:161-168", "polyshape.go:290-300"]}
{"id": "C104", "title": "Centroids and moments are those of the points covered", "statement": "CentroidForPoly is the average point of the polygon and MomentForPoly the mass times the average squared distance from the axis; the same for MomentForCircle (the points between the circles of radius d1 and d2), MomentForBox and MomentForBox2; the mass information of circles and of polygons without rounding describes the covered points, and the centre of gravity of a segment is their average. The moment of a segment is that of the rectangle around it: for every segment with rounding it is strictly larger than that of the points covered.", "quantifier": "all strictly convex counter-clockwise polygons, circles, boxes and segments, all masses and offsets, over the real numbers", "why_tests_cant": "The integrals are over all points of the shape; tests compare formulas with formulas on a few shapes.", "anchors": ["shape_factory.go:129-195", "shape_factory.go:227-241", "circle.go:40-47", "segment.go:161-168", "polyshape.go:290-300"]}
{"id": "C105", "title": "The bins of the spatial hash never get mixed up in memory", "statement": "After any history of inserts, removals, moves, box queries, collision queries and ray casts of a spatial hash, with its bins in memory, taken from and given back to the free list: following the links from a cell or from the free list ends and meets no bin twice; no bin is in two cells or both in a cell and free; no bin is lost; each cell holds exactly the handles it should, and queries, collision queries and ray casts report exactly what they would with plain lists (C57, C93). No call dereferences nil or loops.", "quantifier": "All histories of calls, all numbers of cells and bins, all choices of the pool of handles and of the order in which handles are walked; queries, collision queries and ray casts at any point of them", "why_tests_cant": "A bin linked into two places shows up only under a particular order of removals, orphan clean-ups during queries and reuse, and then as a wrong or endless walk much later; no set of test runs covers the histories.", "anchors": ["space_hash.go:44-70", "space_hash.go:123-159", "space_hash.go:169-245", "space_hash.go:321-334", "space_hash.go:363-401"]}
{"id": "C106", "title": "The search for closest points ends by itself", "statement": "Each step of GJK finds a segment of the Minkowski difference strictly nearer to the origin, so from any two starting points it stops within as many steps as there are pairs of points the support functions can give, and two convex shapes with a and b corners give at most a + b of them over all directions. So, with the limit of 30 steps: with any guess the search never reaches the limit of GJK if a * b <= 8; without a guess it never reaches it if a + b <= 8 (all pairs of balls, rods, triangles and boxes). Every point EPA adds is new, so without a guess EPA never reaches its limit and ends at a normal that is not zero if a + b <= 32. Hence, without a guess and up to eight corners together, the assumption of C102 comes down to a distance that is not zero and no rod end-on.", "quantifier": "All shapes with any numbers of corners, all positions, all guesses or none, all step limits (C106_gjk_ends, C106_gjk_linear); the limits of the code for shapes with few corners", "why_tests_cant": "An endless or cut-off search shows only for particular positions, such as parallel sides with ties, among infinitely many; a test can not show that no position takes more steps.", "anchors": ["collision.go:11-12", "collision.go:28-61", "collision.go:69-73", "collision.go:362-478"]}
{"id": "C107", "title": "Changing a body, a shape or a joint wakes the bodies concerned", "statement": "At any moment between calls, each setter of a body, a shape or a joint wakes the bodies the object belongs to, with the groups they sleep in, and no others; a shape changed under resting bodies wakes them.", "quantifier": "All histories of calls of a space, all bodies, shapes and joints, asleep or not", "why_tests_cant": "A body left asleep after a change shows only in particular sleeping groups and contacts, and then as a body hanging in the air much later.", "anchors": ["shape.go:80-153", "constraint.go:50-108", "body.go:102-130", "body.go:283-355", "body.go:374-428", "circle.go:53-61", "segment.go:115-147"]}
{"id": "C108", "title": "What is drawn is what is there", "statement": "DrawShape colours exactly the points no farther than the radius from the middle of the figure, moved with its body. DrawSpace draws every shape in the space exactly once, asleep or not, and every joint exactly once, and respects the drawer's flags. A spring between different places is one connected line from anchor to anchor whose corners stand sideways by the heights of the table. A contact is drawn as a line that starts 2 before the place on one body and ends 2 behind the place on the other.", "quantifier": "all shapes, transforms, spaces reached by any operations, joints, contacts and drawers", "why_tests_cant": "Whether all is drawn depends on the history of the space; tests draw a scene that is awake and look at it.", "anchors": ["idrawer.go:37-65", "idrawer.go:86-163", "idrawer.go:166-193"]}
{"id": "C109", "title": "Contacts are the same seen from any frame", "statement": "If all shapes are displaced and turned together, caching, the narrow phase and the refreshing of collisions give the displaced and turned shapes, contacts and collisions; if they are only displaced, the same pairs are tested and found, in the same order.", "quantifier": "all shapes of the three classes, all displacements and turns, all placements, kept collision ids and surfaces", "why_tests_cant": "A symmetry over continuous transformations, through searches whose comparisons may tie.", "anchors": ["collision.go:48-61", "collision.go:88-209", "collision.go:226-253", "collision.go:314-486", "collision.go:501-520", "arbiter.go:186-256", "space.go:1068-1082"]}
{"id": "C110", "title": "The broad phase does not depend on the origin, the unit of length or the axes", "statement": "Any history of inserts, removals, moves and steps of the bounding box trees, told in other coordinates (another origin, another unit of length, an axis turned round, the axes exchanged, or any of these one after the other, so also quarter turns), goes the same way: it crashes at the same operation or not at all, the trees have the same form with every box in the new coordinates, the same pairs are kept, and each step reports the same pairs in the same order. Box queries and ray casts find the same shapes in the same order at the same fractions of the ray. In a displaced world, with the shapes cached from the displaced bodies, a step therefore finds collisions for the same pairs in the same order.", "quantifier": "all histories from the empty trees, all boxes, velocities, orders of the hash set, filters and joints, all compositions of the four kinds of changes", "why_tests_cant": "The form of the tree depends on comparisons of areas and distances along the whole history; a test compares one history in two coordinate systems, while the solver's result depends on the order of pairs in every history.", "anchors": ["bb_tree.go:191-246", "bb_tree.go:270-312", "bb_tree.go:345-362", "bb_tree.go:436-537", "bb.go:45-128", "bb.go:173-175", "space.go:944-984"]}
{"id": "C111", "title": "Every step of the whole simulation is one solver step on the collisions found", "statement": "In a space with nobody asleep, over any history of steps, adding, removing and reindexing shapes, the bodies and joints go through exactly the states of repeated solver steps (positions, impulses, velocities) on the collisions that caching, broad phase, narrow phase, filters, callbacks and the arbiters kept found in each step. Each such collision is between two shapes of different bodies. Hence, without forces, gravity and damping, the total momentum of an isolated system never changes, whatever collisions occur, and the centre of mass of its bodies moves as a single particle would.", "quantifier": "all scenes, worlds, histories, time steps, callback answers and orders of the hash sets", "why_tests_cant": "The laws proved for the solver hold for given contacts; that they survive the coupling with detection, where the contacts depend on the whole history, is a statement about all histories.", "anchors": ["space.go:540-646", "space.go:1068-1147", "space.go:1269-1271", "space.go:254-299", "space.go:322-333", "hashset_arbiter.go:4-60", "arbiter.go:186-256", "bb_tree.go:436-537"]}
{"id": "C112", "title": "The whole simulation is the same elsewhere", "statement": "If all bodies are displaced by the same vector, any history of steps, adding, removing and reindexing shapes and setting bodies and joints goes the same way: it crashes at the same operation or not at all; positions differ by the displacement and nothing else; angles, velocities, forces, the pairs in collision and their order, contacts, accumulated impulses, kept arbiters and joints are equal.", "quantifier": "all scenes of circles, rods and polygons, all worlds whose transforms are rotations, all displacements, all histories along which the shapes concerned stay within a bound B of both origins (with 8B²+2B below the number standing for infinity)", "why_tests_cant": "The outcome of a step depends on comparisons in trees, searches and contact order along the whole history; equality of two whole runs for all displacements cannot be sampled.", "anchors": ["space.go:540-646", "space.go:1068-1147", "bb_tree.go:191-537", "collision.go:48-520", "arbiter.go:186-256", "body.go:634-641"]}
{"id": "C113", "title": "In the whole simulation, a step solves exactly the collisions that are there and wanted", "statement": "After any history of the whole simulation (shapes added and removed, moved by the user, reindexed, joints changed, steps taken) Space.Step hands to the solver exactly one arbiter for each pair of different shapes in the space, not both static, on different bodies, whose filters accept each other, with no barring joint between their bodies, and which touch where their bodies are after the step, provided the collision is wanted: BeginFunc accepted it when it began (or accepts it now if it begins), PreSolveFunc accepts it, neither shape is a sensor, and not both bodies have infinite mass. Nothing else is handed over, no pair twice, and the history does not crash.", "quantifier": "for all scenes of balls, rods and convex polygons, all histories of operations that keep the rules of the library (a shape is added when it is out and removed when it is in, static shapes are reindexed when their bodies are moved), all answers of callbacks, all orders in which the shapes are visited and all lengths of steps", "why_tests_cant": "The answer depends on the whole past through the trees with their fat boxes, the cached pairs with their guesses, the cached arbiters and their states; a missed or doubled pair shows only in rare orders of adding, moving and removing.", "anchors": ["space.go:540-583", "space.go:1068-1131", "bb_tree.go:250-330", "hashset_arbiter.go:4-32", "collision.go:501-520"]}
{"id": "C114", "title": "BeginFunc is called exactly when two shapes come together and SeparateFunc exactly when they part", "statement": "Give any two shapes of the space a phase: apart, together, or refused. They are apart until, in a step, they collide (touch where their bodies then are, being of different bodies, accepted by their filters and not barred by a joint); then BeginFunc is asked once and they are together or, if it answered no, refused. They stay so until a step in which they do not collide, or until one of them is removed; then they are apart. The state of the arbiters the space keeps always stands for this phase, although arbiters are cached over steps, swapped, pooled and thrown away. BeginFunc is called in a step exactly for the pairs that were apart and now collide, once for each; SeparateFunc is called exactly for the pairs that were not apart and now do not collide, once for each; and the removal of a shape calls SeparateFunc exactly for the shapes it was not apart from.", "quantifier": "for all scenes, all legal histories of adding, removing and reindexing shapes, moving bodies, changing joints and steps of any length, all orders of visiting, all answers of PreSolveFunc and all answers of BeginFunc that do not depend on which shape comes first; nobody sleeps; the steps are such that closest points are found (always so when balls move among balls and rods, otherwise when the searches of C100-C102 settle)", "why_tests_cant": "Whether a callback is missed or doubled depends on the whole past of two shapes: when they were last seen, how long an arbiter has been kept, in which order they were reported; a test sees one such past.", "anchors": ["space.go:1068-1101", "space.go:540-600", "hashset_arbiter.go:4-60", "arbiter.go:186-256", "space.go:395-408"]}
{"id": "C115", "title": "Bodies that are not connected do not influence each other, even when they rest on the same ground", "statement": "Call a group of bodies sealed off if every collision and every joint is either between two bodies of the group or touches no body of the group but immovable ones. If two simulations agree on a group that is sealed off in both, on the collisions and joints within it and on which of its bodies are stepped, then after a step, and after any number of such steps, they still agree on the group, on its collisions and joints with their accumulated impulses, whatever the rest of the two simulations does and in whatever order the links are solved relative to the others. In particular in a step of the whole simulation a body that no collision and no joint touches moves exactly by its velocity, gravity, damping and the force on it; a kinematic body keeps its velocity and moves by it whatever it runs into; and an immovable body that is not stepped is unchanged through any history in which the user does not set it.", "quantifier": "all groups of bodies, all numbers of steps, all collisions and joints of all ten kinds in any order, all iteration counts, all worlds and histories", "why_tests_cant": "A solver that lets the two balls on a floor act on each other through the floor, for instance by writing a tiny velocity into it, gives a plausible picture in every scene one looks at; that nothing leaks is a statement about all scenes with and without the other ball.", "anchors": ["space.go:540-640", "arbiter.go:105-184", "body.go:614-641"]}
{"id": "C116", "title": "The simulation remembers of a collision exactly what its solver left, for as long as it should", "statement": "Through any history of the whole simulation: (1) the impulses kept for every contact push, with friction within the cone given by the friction of the two shapes, and so do the impulses the contacts of the next step start from; (2) there is one kept collision for any two shapes, and one for each collision passed to the solver; (3) in a step every contact of every collision starts from the accumulated impulses of the kept contact of the same two shapes with the same feature hash (the last such), and from zero if there is none; (4) what is kept after a step for the collisions solved is what the solver left; a collision that was found but not solved keeps no contacts; what is kept of any other is unchanged; (5) a collision is kept until CollisionPersistence steps have passed since it was last found, and no longer, except between two static bodies.", "quantifier": "all legal histories of adding and removing shapes, moving bodies, changing joints and stepping; (1) all histories whatever", "why_tests_cant": "Warm starting only changes how fast the solver converges, so a simulation that loses or mixes up impulses now and then still looks right; that every contact in every history gets its own is not observable in examples.", "anchors": ["space.go:540-640", "space.go:1068-1131", "hashset_arbiter.go:4-60", "arbiter.go:186-256"]}
{"id": "C117", "title": "Queries of the whole simulation answer what is there", "statement": "After any history of adding, removing and reindexing shapes, moving bodies and stepping, if every shape in the space was added, reindexed or stepped after its body was last moved by the user, the queries answer for the balls, rods and convex polygons as their bodies stand now: BBQuery reports, once each, exactly the shapes the filter accepts which do not lie on one side of the box as a whole; PointQueryNearest reports an accepted shape with its distance and none is nearer, or none and all are at least the maximum distance away; SegmentQueryFirst with radius 0 reports the shape met first with the least fraction, or none and nothing is met before the end; SegmentQuery reports each accepted shape met before the end once, with its least fraction. For rays that start level with a rod outside of it see C79. A shape that is stale is found where it was.", "quantifier": "all legal histories, all good figures, all places, points, rays, boxes and filters", "why_tests_cant": "It is a statement about trees grown by any history together with the geometry of any figures; a shape missed by a stale or badly merged box, or a wrong comparison on the way, shows only in rare histories.", "anchors": ["space.go:933-984", "space.go:1219-1256", "bb_tree.go:332-343", "bb_tree.go:493-537", "shape.go:155-220"]}
{"id": "C118", "title": "What rests in equilibrium stays exactly at rest", "statement": "Let the bodies be at rest, let collisions carry impulses which push, which are within the limit of friction and whose shapes overlap by no more than CollisionSlop, let pins, pivots and slack slide joints be in place with impulses their largest force can give, and let on each body the impulses of the collisions and joints make up for the gravity of a step. Then a step, with any number of iterations, any damping and any elasticity, leaves every body exactly as it is and every impulse exactly as it is; so do any number of steps of the same length in each of which the collisions are found again. With steps of another length this is not so: the impulses are applied in proportion but kept as they were, and a stack is set in motion in the step after.", "quantifier": "for all bodies, collisions, joints, iterations, damping, elasticities and numbers of steps", "why_tests_cant": "A stack in a test is settled only approximately, and drift by a tiny amount per step is indistinguishable from rounding; that rest is an exact fixed point of the whole solver loop needs the sum of all impulses at once, for every arrangement of bodies.", "anchors": ["arbiter.go:105-184", "space.go:540-631", "body.go:612-641", "pin_joint.go:46-87", "pivot_joint.go:45-81", "slide_joint.go:33-90"]}
{"id": "C119", "title": "A heap at rest in the whole simulation stays at rest, and a ball put on a level floor never moves", "statement": "Take the whole simulation, with broad phase, collision detection, arbiter cache and solver, after any history of adding, removing and moving shapes. If the shapes are balls and rods (rods meeting only balls), no collision has been refused, the bodies are at rest and the impulses stored with the collisions make up for gravity, then any number of further steps of the same length leaves every body exactly where it is, in whatever order the shapes are visited: the step finds the same collisions with the same contacts, perhaps in another order and with the two shapes exchanged, and finds the impulses it had stored. In particular a ball that is put at rest on a level floor, overlapping it by no more than CollisionSlop, is in exactly the same place after any number of steps, for every gravity, friction, elasticity and positive number of iterations.", "quantifier": "for all histories, scenes of balls and rods, step lengths, numbers of steps and orders of visiting the shapes", "why_tests_cant": "It is about infinitely many steps, and the cache must return the impulse to the right contact each time whatever order the broad phase reports the pairs in; a test sees a body that has not moved much for a while.", "anchors": ["space.go:540-646", "space.go:1068-1131", "arbiter.go:105-256", "collision.go:67-141", "hashset_arbiter.go:4-60", "body.go:612-641"]}
{"id": "C120", "title": "Collisions of balls obey Newton's law of restitution and Coulomb's law of friction exactly", "statement": "After any history of the whole simulation, take a step in which two balls collide, each about the centre of gravity of its body, or a ball and a rod whose body cannot be turned, such as the ground, and in which nothing else acts on the two bodies except on one that cannot be moved. After the step, whatever the positive number of iterations and whatever impulses were remembered: the normal is the unit vector from the centre of the ball to the other shape; the contact only pushes; if it pushes, the bodies part at exactly the product of the elasticities times the speed at which they were approaching before the step; if it does not push they part at least that fast; the friction is at most the product of the frictions times the push, and is exactly that, against the slip, if there is any slip relative to the surface velocities. If the collision is new, or goes on with an unchanged length of step, the velocities of the two bodies are those of free motion changed by exactly these impulses, equal and opposite, at the point of contact.", "quantifier": "for all histories, scenes, bodies, surfaces, step lengths, numbers of iterations and visiting orders", "why_tests_cant": "A test checks one pair of balls at one speed to within a tolerance; the law must hold for every mass, spin, friction, elasticity and surface velocity, whatever the warm start, and be reached in the first iteration and kept by all others.", "anchors": ["space.go:540-646", "arbiter.go:105-256", "collision.go:88-141", "everything.go:244-300", "body.go:612-641"]}
{"id": "C121", "title": "A body that nothing touches flies along a parabola, with a known error", "statement": "After any history of the whole simulation, a body with a mass that the user and the joints leave alone and whose shapes touch no shapes except sensors (or, for polygons, whose boxes overlap no boxes of shapes they could collide with) has after n further steps of the length dt, whatever else the user and the other bodies do between them, exactly the velocity v d^n + g dt (1 + d + ... + d^(n-1)) and the position p + dt times the sum of the velocities before the steps, and turns accordingly; d is the damping of one step. Without damping that is after the time t the velocity v + g t, the position p + v t + g t^2/2 - g t dt/2, so the error is g t dt/2, and each step adds (g dt)^2/2 of energy per unit of mass; with damping the velocity goes geometrically to g dt/(1-d). A ball thrown above a floor follows these formulas at least as long as they say it is above the floor.", "quantifier": "for all histories, scenes, bodies, velocities, gravities, dampings, step lengths and numbers of steps", "why_tests_cant": "A test follows one flight for some steps; the formulas must hold for every number of steps, with anything going on elsewhere in the space.", "anchors": ["space.go:540-646", "body.go:612-641"]}
{"id": "C122", "title": "Overlaps beyond the allowed one shrink geometrically, without speed", "statement": "In the whole simulation a ball that has been put at rest too deep into a level floor is pulled out: the first step only finds the overlap, and each further one leaves exactly the part cbias^dt of the overlap beyond the allowed slop, so after n + 1 steps the rest is (cbias^dt)^n times the first; velocity and spin stay zero whatever the elasticity and friction, nothing else moves, the overlap never falls below slop, and it comes as near to it as one likes. After any collision of balls, or of a ball and the ground, that nothing else disturbs, the next step moves the bodies apart along the normal by what their velocities do plus 1 - cbias^dt of the overlap beyond slop, shared in proportion to the inverse masses and without turning them.", "quantifier": "for all scenes, depths, masses, gravities, elasticities, frictions, step lengths and numbers of steps", "why_tests_cant": "A test sees the overlap become smaller for one depth and one mass; the exact rate, and that it is never overshot, hold for every one and after every number of steps.", "anchors": ["arbiter.go:117-156", "arbiter.go:163-184", "body.go:612-641", "space.go:540-646"]}
{"id": "C123", "title": "Balls bounce as in textbooks and never gain energy", "statement": "In the whole simulation without gravity, damping and forces, two balls that collide with each other and nothing else, or a ball and a rod that belongs to the resting ground, do not gain kinetic energy in the step, for any elasticity from 0 to 1 and any friction, provided the surfaces do not move along each other like conveyor belts. Without friction the velocities after the step are those of the textbook: along the line of the centres the impulse is (1 + e) times the speed of approach, divided by the sum of the inverse masses; spins stay as they are; and exactly the part 1 - e^2 of the energy of the approach is lost. A ball is thrown back by the ground like light by a mirror, with e times the speed along the normal. Balls that already part are left alone.", "quantifier": "for all scenes, legal histories, masses, velocities, radii, elasticities, frictions, step lengths and numbers of solver iterations", "why_tests_cant": "Tests compare a few bounces with a tolerance; that energy never grows needs all velocities, spins, frictions and numbers of iterations.", "anchors": ["arbiter.go:105-157", "arbiter.go:163-184", "arbiter.go:186-259", "space.go:540-646"]}
{"id": "C124", "title": "A ball does not fall through a floor if it moves less than its size per step", "statement": "In the whole simulation of a ball above a level rod that belongs to the resting ground, the centre of the ball never gets lower than V*dt below the height at which it just touches, where V bounds the speed at which it falls while it touches nothing. So if V*dt is less than the sum of the radii, the centre never reaches the line of the floor, and the ball never gets through, for any spin, friction, gravity, forces, elasticity from 0 to 1, correction rate, number of bounces and number of steps, as long as the ball is over the floor. With damping and elasticity 0 the bound V need not be assumed: any V with g*dt <= (1 - damping^dt)*V that bounds the first speed does.", "quantifier": "for all scenes of a ball and a level floor, all step lengths, all velocities, spins, forces, frictions and elasticities from 0 to 1, and all numbers of steps", "why_tests_cant": "Tunnelling shows up only at particular speeds, step lengths and phases of the bounce; that it never happens below the limit needs all of them and arbitrarily many bounces.", "anchors": ["arbiter.go:105-157", "arbiter.go:163-184", "arbiter.go:186-259", "body.go:612-641", "space.go:540-646"]}
{"id": "C125", "title": "A ball on a level floor slides, evenly slowed down, until it rolls, and then rolls for ever", "statement": "In the whole simulation a ball that is put on a level floor with any speed along it and any spin, under gravity g and with friction u, stays at its height; in each step friction takes away u*g*dt*(1 + m*rho^2/I) of the slip of its lowest point, or all of it; speed and spin change in proportion, so that the angular momentum about the point of contact is kept. While it slips the speed changes by u*g*dt per step. As soon as the steps suffice to take all the slip away the ball rolls: the lowest point moves with the surface of the floor (which may be a conveyor belt), and speed and spin stay the same ever after, with the value that the first speed and spin determine. All this is exact, for any elasticity, number of solver iterations and number of steps, as long as the ball is on the floor.", "quantifier": "for all scenes of a ball on a level floor, all speeds, spins, masses, moments, radii, frictions, surface velocities, step lengths and numbers of steps", "why_tests_cant": "Tests would compare a few rolling balls with a tolerance; that the discrete motion is exactly Coulomb's and never creeps or speeds up needs all speeds, spins and numbers of steps.", "anchors": ["arbiter.go:105-157", "arbiter.go:163-184", "arbiter.go:186-259", "body.go:612-641", "space.go:540-646"]}
{"id": "C126", "title": "Motors turn at exactly their rate, gears take exactly the configured part of their error away, rotary limits only push back", "statement": "In the whole simulation, two bodies on which nothing acts but the joint between them (and forces, torques, gravity and damping): after every step a motor has given them exactly its rate, a gear exactly the speed that takes the part 1 - errorBias^dt of its error (at most maxBias*dt) away in the next step, unless the joint has given its greatest impulse maxForce*dt, and then it is in the direction of that speed. So over any number of steps in which the joint is strong enough the angle between a motor's bodies changes by exactly rate*dt per step, and a gear's error is exactly the power of errorBias^dt times its first value, as soon as it is within the cap. A rotary limit does nothing inside its limits; beyond one it never pushes outwards, and the excess shrinks at least as fast as a gear's error until the bodies are back. The number of solver iterations (at least one), the cached impulse, and whatever goes on elsewhere do not matter.", "quantifier": "for all worlds, scenes, pairs of bodies, settings of the joints, torques, step lengths and numbers of steps and iterations", "why_tests_cant": "Tests would run a few motors and gears with a tolerance; that cached impulses, clamping and the iterations always end at the exact speed needs all states of the bodies and the joint, and the long-run law needs all numbers of steps.", "anchors": ["gear_joint.go:27-66", "simple_motor.go:21-53", "rotary_limit_joint.go:22-76", "body.go:612-641", "space.go:540-646", "everything.go:307-313"]}
{"id": "C127", "title": "Simplifying vertexes leaves no corner flatter than the tolerance, and a line is short exactly if its length is at most the minimum", "statement": "SimplifyVertexes drops a vertex exactly if the line turns there, between the last vertex kept and the next one, by at most the tolerance (for tolerances below a right angle); of a closed line also the first vertex is replaced if it is flat. Afterwards no corner of the line should be flatter than the tolerance, so that simplifying again changes nothing. IsShort says yes exactly if the way from one index to the other, going round if need be, is at most as long as the minimum.", "quantifier": "for all polylines of two or more vertexes, tolerances with positive cosine, indexes and minima", "why_tests_cant": "A test compares a few simplified lines; which vertexes stay depends on all earlier decisions, and whether any flat corner can be left needs all lines.", "anchors": ["polyline.go:17-19", "polyline.go:44-53", "polyline.go:55-75"]}
{"id": "C128", "title": "With enough iterations the solver finds the solution of all contacts together", "statement": "Call velocities a solution if they come from the velocities before the iterations by impulses in the contacts that only push, if all bodies in contact part at least at the speed asked for, and at exactly that speed where there is a push. There is at most one solution. If there is one, the iterations of the solver come as near to it as one likes: for the velocities that correct overlaps whatever friction and joints there are, for the velocities proper in collisions without friction and joints. A pass over the collisions changes no velocity and no impulse exactly if a solution is reached.", "quantifier": "for all numbers of bodies, collisions, contacts and joints, all masses (also immovable bodies), all places, normals, velocities and impulses already there, all time steps and all orders of the collisions", "why_tests_cant": "A test iterates a few scenes a few times; that the errors of all contacts die out together needs the energy argument over all scenes and without a bound on the iterations.", "anchors": ["arbiter.go:117-157", "arbiter.go:163-184", "arbiter.go:322-354", "everything.go:244-259", "space.go:586-631"]}
{"id": "C129", "title": "What rounding cannot spoil", "statement": "In any arithmetic whose operations are rounded in a monotone way, float64 among them, and whatever the mathematical functions return: after any history of adding and removing shapes, moving bodies, changing joints and steps, the library has not failed, the next step tests exactly the pairs whose computed boxes touch and whose filters agree, each once, and remembers exactly what it found; no contact ever pulls, and no friction exceeds the grip; no pin, slide, gear, motor or rotary limit joint exceeds its greatest force, and the limits only push inwards; a body that nothing pushes is not made faster by damping; and bodies at rest, without gravity, with contacts that do not overlap beyond the slop and joints where they should be, do not move at all in any number of steps.", "quantifier": "for all arithmetics with the laws of Spec.Rounded (IEEE binary64 without overflow is proved to be one), all mathematical functions, all scenes, all histories, all time steps and all numbers of bodies, shapes, contacts and joints", "why_tests_cant": "Rounding errors depend on every digit of every input; a test sees a few of them, and whether a sum of thousands of rounded steps creeps, pulls or misses a pair cannot be seen from samples.", "anchors": ["arbiter.go:105-184", "bbtree.go:51-417", "space.go:540-640", "body.go:605-641", "pin_joint.go:46-91", "slide_joint.go:33-94", "gear_joint.go:27-70", "simple_motor.go:21-57", "rotary_limit_joint.go:22-80"]}
{"id": "C130", "title": "Forces and impulses at points act as in mechanics", "statement": "Any number of impulses applied at points of a body, given in world or in body coordinates, change nothing but its velocities: the momentum grows by the sum of the impulses, each turned by the body's angle if it is given in body coordinates, and the angular momentum about any point of the world by the sum of their moments about that point. Forces add up until the next step and then act as impulses of the force times the length of the step at the same points. An impulse does the work of mechanics, the impulse times the mean velocity of the point; KineticEnergy grows by twice that work, because it is twice the kinetic energy.", "quantifier": "for all bodies reached by public operations from NewBody, all lists of forces and impulses, all points, all angles, all time steps, gravities and dampings", "why_tests_cant": "A test applies a force or two at a convenient point and angle; the laws sum over all lists and hold about all points.", "anchors": ["body.go:443-456", "body.go:497-522", "body.go:524-538", "body.go:621-631", "arbiter.go:334-338"]}
{"id": "C131", "title": "A body that was fast lately is awake", "statement": "A body counts as slow in a step exactly if the square of the speed of its centre and that of a point at its radius of gyration add up to no more than the square of the idle speed (the IdleSpeedThreshold if set, otherwise what gravity adds to a speed in a step). A body at rest is always slow, one faster than the idle speed never, and with neither threshold nor gravity only a body at rest is slow. A body that was awake and too fast in a step is asleep after any later calls only if the steps among them took at least SleepTimeThreshold together.", "quantifier": "all bodies of positive mass, thresholds, gravities and step lengths; all states reached by any allowed calls, all steps, and all sequences of allowed calls after the step", "why_tests_cant": "A test waits once for a stack to sleep; that no interleaving of adding, removing, changing types, waking, changing gravity and stepping puts a body to sleep too early is a statement about all histories.", "anchors": ["space.go:448-478", "body.go:374-415", "body.go:443-456"]}
{"id": "C132", "title": "A space knows what it contains", "statement": "ContainsBody, ContainsShape and ContainsConstraint are true exactly of what was added and not removed since, whether it sleeps or not. StaticBodyCount is the number of static bodies added and DynamicBodyCount, as its comment says, the number of dynamic ones. Static, awake and sleeping bodies together are all bodies.", "quantifier": "all states reached by any sequence of allowed calls, of any length, from an empty space", "why_tests_cant": "A test counts after one or two calls; sleeping, waking and changes of type move bodies between lists in every order.", "anchors": ["space.go:133-140", "space.go:410-420"]}
{"id": "C133", "title": "A hinge holds", "statement": "Two bodies joined by a PivotJoint that is strong enough, and touched by nothing else, keep the two points together: each step leaves only the fraction errorBias^dt of the distance, plus what the points swerve from the tangents of their arcs. If the points are the centres of gravity, the vector between them is multiplied by errorBias^dt in each step. In real numbers the swerve is at most half the square of the angle turned times the arm, so that over any number of steps the distance stays below a bound of the second order in the step.", "quantifier": "all worlds with any number of bodies, joints and shapes, all joints' parameters, masses, forces and dampings, any number of steps", "why_tests_cant": "A test follows one hinge for some frames and compares with a tolerance; that the error never builds up, for all arms, speeds and iterations, needs a bound proved by induction over the steps.", "anchors": ["pivot_joint.go:45-81", "body.go:634-642", "space.go:540-620"]}
{"id": "C134", "title": "Rods and ropes keep their length", "statement": "Two bodies joined by a PinJoint that is strong enough, and touched by nothing else, stay at its distance: each step leaves only the fraction errorBias^dt of the error, plus the surplus of the step over what the speed along the line makes of the length. The surplus is of the second order in the step: at least minus the swerve of the points along their arcs, at most the swerve and the square of the way across the line over twice the length. So over any number of steps the error stays below a bound. The same holds, from above, for a SlideJoint while it is stretched beyond its maximum.", "quantifier": "all worlds with any number of bodies, joints and shapes, all joints' parameters, masses, forces and dampings, any number of steps", "why_tests_cant": "A test follows one pendulum for some frames and compares with a tolerance; that the error never builds up, for all arms, speeds and iterations, needs a bound proved by induction over the steps.", "anchors": ["pin_joint.go:46-87", "slide_joint.go:33-90", "body.go:634-642", "space.go:540-620"]}
{"id": "C135", "title": "Rotary springs settle, or run away, exactly as their numbers say", "statement": "Two bodies joined by a DampedRotarySpring with the default torque, and turned by nothing else, follow a linear recurrence: in each step the twist grows by dt times the speed, and then the speed is changed by the spring's pull and multiplied by E = exp(-damping*dt*I)*spaceDamping^dt, whatever the number of iterations. A quadratic measure of the swing is multiplied by exactly E in each step. If E*stiffness*I*dt^2 is at most 2(1+E), as it is whenever stiffness*I*dt^2 <= 4, twist and speed stay bounded for ever; with any damping at all and a strict inequality the spring comes to rest at its rest angle from wherever it starts. Beyond that limit it runs away geometrically.", "quantifier": "all worlds with any number of bodies, joints and shapes, all rest angles, stiffnesses, dampings, moments, step lengths and numbers of iterations, any number of steps", "why_tests_cant": "A test sees one spring for some frames; where exactly stability ends, and that nothing grows before it over any number of steps, needs an invariant and a limit.", "anchors": ["damped_rotary_spring.go:15-45", "damped_rotary_spring.go:51-67", "body.go:600-632", "space.go:540-620"]}
{"id": "C136", "title": "Bodies on a spring sweep equal areas, and settle as its numbers say", "statement": "Two bodies whose centres are joined by a DampedSpring, and that otherwise fall alike, obey Kepler's second law exactly: whatever the spring's force function and damping, the area swept in a step changes only by the damping of the space. Moving along their line on a default spring they stay on it and follow a linear recurrence; with too little energy to meet they never do, and swing within fixed bounds if E*stiffness*m*dt^2 <= 2(1+E), where E is the part of the speed that the damping leaves and m the sum of the inverse masses. With any damping they come to rest at the rest length. With rest length zero they orbit each other, in any direction, within fixed bounds.", "quantifier": "all worlds with any number of bodies, joints and shapes, all force functions, stiffnesses, dampings, masses, gravities, step lengths and numbers of iterations, any number of steps", "why_tests_cant": "A test sees one spring for some frames and compares with a tolerance; exact conservation and bounds for all time need invariants.", "anchors": ["damped_spring.go:41-92", "damped_spring.go:98-100", "body.go:621-641", "space.go:540-620"]}
{"id": "C137", "title": "A ratchet remembers the highest tooth passed, and holds it", "statement": "Two bodies joined by a RatchetJoint: after any number of steps, however the bodies are turned and however weak the joint is, the ratchet holds exactly the highest tooth (phase + z*ratchet, in the direction in which it lets the bodies turn) among the one held at first and those the bodies were seen to pass. In front of the held tooth the bodies turn as if there were no joint; behind it the joint only ever pushes forward. If it is strong enough, bodies that have fallen behind come back at least at the rate given by errorBias and maxBias, and they are never further behind than they could turn back in one step. A new ratchet holds the angle it was made at, which need not be a tooth, and may give back less than one tooth of it.", "quantifier": "all worlds with any number of bodies, joints and shapes, all phases, non-zero ratchets of either sign, forces, step lengths and numbers of iterations, any number of steps", "why_tests_cant": "The held tooth depends on the whole history of the motion, in either direction and with any phase; tests see a few turns of one ratchet.", "anchors": ["ratchet_joint.go:13-26", "ratchet_joint.go:28-54", "ratchet_joint.go:56-63", "ratchet_joint.go:65-85", "space.go:540-620"]}
{"id": "C138", "title": "A slide joint leaves bodies alone inside its range and props them apart below it", "statement": "Two bodies joined by a SlideJoint with min <= max: in a step that ends with the distance of the tied points between min and max, both bodies move exactly as if there were no joint. While the points are nearer than min (but not at the same place) and the joint is strong enough, what is missing shrinks in each step to the part errorBias^dt of itself, but for what the arcs of the turning bodies take away, whatever forces and speeds the bodies have; with real numbers that is at most half the squares of the angles turned times the arms, so what is missing stays below S/(1-errorBias^dt) but for what is left of its first value. (Above max it is a rope, C134.)", "quantifier": "all worlds with any number of bodies, joints and shapes, all anchors, ranges, masses, moments, forces, step lengths and numbers of iterations, any number of steps", "why_tests_cant": "The bound has to hold for every motion of the two bodies and over any number of steps; a test sees one pair for some frames.", "anchors": ["slide_joint.go:33-60", "slide_joint.go:62-68", "slide_joint.go:70-90", "body.go:600-641", "space.go:540-620"]}
{"id": "C139", "title": "By rounding a ratchet loses at most one tooth, and only right on the tooth", "statement": "In float64 a RatchetJoint with phase 0 and a positive distance r of the teeth: while the bodies are behind the held angle it is kept; else the ratchet takes an angle that is a rounded whole multiple of r. When it holds the tooth z (|z| < 2^53) and the bodies' angle is at least the true product z*r, it never takes a lower tooth. When their angle is only at least the rounded product (z >= 1, z*r not subnormal), it holds at least the tooth z-1. That one tooth can indeed be lost: with r = 0.7 a ratchet that holds its third tooth, with the bodies standing exactly on it, takes the second one, and the bodies then turn back unhindered.", "quantifier": "all float64 angles, distances of the teeth, tooth numbers below 2^53, bodies and step lengths", "why_tests_cant": "Whether fl(fl(z*r)/r) is at least z depends on the last bits of z and r; the failing pairs are scattered among those that work, and no test enumerates 2^106 pairs.", "anchors": ["ratchet_joint.go:28-54", "ratchet_joint.go:65-85"]}
{"id": "C140", "title": "A groove keeps a body's centre in it, and kicks what is tied off centre", "statement": "GrooveJoint between the ends of its groove: a second iteration of the solver changes nothing, whatever the first one found. With e the change of relative velocity asked for (from where the bodies would be without the joint) and A, B, C the responses of the tied points to impulses across and along the groove, the velocity left across the groove differs from the one asked for by exactly B(B e_n - A e_t)/(AC - B^2). So if an impulse across the groove does not move the points along it (B = 0), the joint does what is asked; and if it does, points that slide along the groove and need no correction get a velocity across it, however many iterations are made. A body that runs with its centre of gravity in a groove of the ground: while it is between the ends and the joint is strong enough, its distance from the groove shrinks in every step to exactly the part errorBias^dt of itself, whatever forces pull at it and however fast it runs.", "quantifier": "all worlds with any number of bodies, joints and shapes, all grooves, anchors, masses, moments, speeds, forces, step lengths and numbers of iterations, any number of steps", "why_tests_cant": "The error of the joint depends on the directions of two arms and of the speed; the exact law has to hold for all of them and over any number of steps.", "anchors": ["groove_joint.go:31-61", "groove_joint.go:63-68", "groove_joint.go:70-79", "groove_joint.go:81-96", "everything.go:261-299"]}
{"id": "C141", "title": "The spatial hash misses nothing through rounding", "statement": "In rounded arithmetic, where the bounds of boxes are divided by the size of the cells with rounding before the floor is taken, and for any history of inserting, removing, moving, querying and updating: every call is possible; a box query reports no shape twice and every other shape whose box meets the box asked about; the collision query reports each two shapes whose boxes meet exactly once and no pair twice; the same for pairs with the static hash. In float64 each bound falls in its own cell or, only if its quotient is rounded up to a whole number, in the next one, which happens.", "quantifier": "all monotone roundings, all cell sizes, table sizes, histories and boxes; float64 for the last part", "why_tests_cant": "The boxes that rounding puts in another cell are rare and lie exactly at the lines of the grid; a miss there would show as a rare collision not seen.", "anchors": ["space_hash.go:38-70", "space_hash.go:86-132", "space_hash.go:161-167", "space_hash.go:169-223"]}
{"id": "C142", "title": "Ray casts through the spatial hash in rounded arithmetic", "statement": "In rounded arithmetic a ray cast through the spatial hash that ends reports no shape twice and only shapes of the index, ends with the least fraction the callback gave, and leaves the index as it was. If the reciprocal of the size of the cells is exact (a power of two), it reports every shape whose box its start is in. Otherwise it need not: in float64 with cells of size 49 a ray starting at x = 49 and staying in one cell looks only at cells of the column before, and misses a box it goes right through; in exact arithmetic the same ray finds it.", "quantifier": "all monotone roundings, cell sizes, table sizes, histories and rays; the miss is a witness in float64", "why_tests_cant": "The starts that fail lie on lines of the grid and depend on the last bit of a reciprocal; a test with round cell sizes meets none.", "anchors": ["space_hash.go:225-245", "space_hash.go:248-313", "space_hash.go:38-56"]}
{"id": "C143", "title": "The spatial hash spreads neighbouring cells", "statement": "With a table of 2^k places (k at most 64) two cells in one row, or in one column, of the grid share a place of the table exactly if their distance is a multiple of 2^k; so any 2^k neighbours in a column fill the table, each in a place of its own.", "quantifier": "all cells, all table sizes that are powers of two", "why_tests_cant": "A wrong factor in the hash changes no result, only the time; the law holds for all 64-bit words.", "anchors": ["space_hash.go:336-338"]}
{"id": "C144", "title": "With enough iterations joints all hold together", "statement": "Pin, pivot, gear and motor joints in any number and arrangement, prepared for their bodies, none at its greatest force, and no contacts: if there are velocities with which every joint has what it asks for, the iterations of the solver come as near to such velocities as one likes. Among all such velocities these are the ones that take the least change of the present velocities, measured as kinetic energy. What is missing shrinks at least by a fixed factor below one in each iteration, and no iteration takes the velocities further from any velocities that satisfy the joints.", "quantifier": "all bodies, all lists of such joints, all velocities, any number of iterations", "why_tests_cant": "Joints undo each other's work; that going round them converges for every chain, loop and redundant set of joints is a theorem about all systems of equations of this form.", "anchors": ["space.go:622-631", "pin_joint.go:67-87", "pivot_joint.go:60-81", "gear_joint.go:48-66", "simple_motor.go:38-53"]}
{"id": "C145", "title": "Joints that are strong enough always hold together", "statement": "For every arrangement of prepared pin, pivot, gear and motor joints without contacts whose wishes can be met together there is a force such that, if the greatest force of all joints exceeds it, no joint reaches its greatest force in any number of iterations; so the iterations come as near as one likes to velocities with which every joint has what it asks for.", "quantifier": "all bodies, all lists of such joints, all velocities and impulses so far, any number of iterations, all greatest forces above the bound", "why_tests_cant": "The impulses of the iterations add up without end; that their sum stays bounded for every arrangement needs the speed of the convergence.", "anchors": ["space.go:622-631", "constraint.go:40", "constraint.go:64-71", "pin_joint.go:72-87", "pivot_joint.go:64-81", "gear_joint.go:48-66", "simple_motor.go:38-53"]}
{"id": "C146", "title": "Contacts and joints can be met together", "statement": "Contacts without friction together with pin, pivot, gear and motor joints, in any number and arrangement, prepared for their bodies, no joint at its greatest force: if there are any velocities with which every joint has what it asks for and every contact parts at least as fast as it asks for, then after enough iterations of the solver every joint misses what it asks for, and every contact falls short of its speed, by as little as one likes. No iteration takes the velocities further from any such velocities, if the impulses of contacts that part faster in them than they ask for count as distance; so contacts that start without impulses never lead further away than the start.", "quantifier": "all bodies, all lists of contacts without friction and of such joints, all velocities and impulses so far, any number of iterations, all velocities that meet everything", "why_tests_cant": "Contacts and joints disturb each other in every iteration; that together they get arbitrarily exact for every arrangement is a limit that no number of runs shows.", "anchors": ["space.go:622-631", "arbiter.go:117-157", "pin_joint.go:72-87", "pivot_joint.go:64-81", "gear_joint.go:48-66", "simple_motor.go:38-53"]}
{"id": "C147", "title": "The solver finds the solution for contacts and joints", "statement": "Contacts without friction together with pin, pivot, gear and motor joints, in any number and arrangement, prepared for their bodies, no joint at its greatest force: if there are impulses that only push in the contacts, with which all bodies part at least as fast as asked for, exactly as fast where there is a push, and every joint has what it asks for, then the velocities after enough iterations of the solver are as near as one likes to the velocities these impulses give. All such impulses give the same velocities. Where the contacts start without impulses, these are, of all velocities that contacts and joints allow, the ones to which the present velocities have to be changed least.", "quantifier": "all bodies, all lists of contacts without friction and of such joints, all velocities and impulses so far, all solutions, any number of iterations", "why_tests_cant": "The limit of alternating steps of contacts and joints, which undo each other, for every arrangement with a solution; redundant contacts and joints included, where the impulses need not settle.", "anchors": ["space.go:622-631", "arbiter.go:117-157", "pin_joint.go:72-87", "pivot_joint.go:64-81", "gear_joint.go:48-66", "simple_motor.go:38-53"]}
{"id": "C148", "title": "Contacts and joints that can be met have a solution, and the solver settles on it", "statement": "For any contacts and any pin, pivot, gear and motor joints, impulses that solve them all together (contacts only push, part at least as fast as asked for, and exactly so where there is a push, joints have what they ask for) exist exactly if there are any velocities at all that meet everything. So, without friction and with no joint at its greatest force, the velocities settle, with enough iterations, whenever anything meets what is asked for: on velocities that meet everything and, where the contacts start without impulses, are the nearest that do. The same holds for contacts alone, both for velocities and for the correction of overlaps, whatever friction and joints there are.", "quantifier": "all bodies, all lists of contacts and of such joints, all velocities and impulses so far, any ordered field", "why_tests_cant": "Existence of a solution for every arrangement, redundant ones included, and a limit for each; a run only shows one arrangement after finitely many iterations.", "anchors": ["space.go:622-631", "arbiter.go:117-157", "pin_joint.go:72-87", "pivot_joint.go:64-81", "gear_joint.go:48-66", "simple_motor.go:38-53"]}
{"id": "C149", "title": "Heaps on open ground always have a solution", "statement": "Take any heap in which the normals of contacts point from one movable body to the other, and away from some common point of the ground where a body touches immovable ones: balls in any number on a level floor, on a slope, in a valley or a corner. Then all contacts can be parted together as fast as they ask for; so, whatever friction and joints there are, the solver's corrections of overlaps settle as the iterations go on, on corrections that resolve every overlap at least as fast as asked for, and without friction and joints so do the velocities. The normal the engine finds for two overlapping balls with different centres always points so. In a gap that is too narrow there is no such point, and no solution.", "quantifier": "all heaps on open ground, all numbers of bodies and contacts, all velocities, all parameters of the solver, all iteration counts", "why_tests_cant": "That no heap, however large and tangled, leaves the solver going round without a limit cannot be seen from sampled heaps.", "anchors": ["space.go:586-631", "arbiter.go:117-157", "collision.go:87-105"]}
{"id": "C150", "title": "Trees of joints always hold", "statement": "Pin, pivot, gear and motor joints that form trees, that is, that can be put in an order in which each hangs a body that can move and turn, and that was not held before, on another one, can always be met together, whatever they ask for and in whatever order the space lists them. So ropes, chains, ragdolls and trains of gears always come to hold: there is a force such that, if the joints may use it, the velocities come, with enough iterations of the solver, as near as one likes to velocities with which every joint has what it asks for. Two motors with different rates between the same two bodies are no tree, and cannot be met.", "quantifier": "all trees of such joints, of any size and in any order, all bodies, velocities and impulses so far", "why_tests_cant": "Trees of every shape and size, and a limit in the number of iterations.", "anchors": ["space.go:622-631", "pin_joint.go:72-87", "pivot_joint.go:64-81", "gear_joint.go:48-66", "simple_motor.go:38-53"]}
{"id": "C151", "title": "Swarms of balls are always resolved", "statement": "In a simulation of balls about the centres of gravity of their bodies, after any history, with any joints and any friction, where at most one body that cannot be pushed has shapes and no two bodies are at the same place: the corrections of overlaps that a step makes settle as the number of its iterations grows, and what they settle at corrects every overlap at least as fast as it asks for, however many balls there are and however they overlap. If there are no friction and no joints, the velocities settle too, and all the balls that touch part at least as fast as asked for. Both hold as well for balls on a ground that cannot be pushed and is made of any number of rods that have a point in common, such as a floor, a slope or a corner, as long as no centre of a ball is on a rod. For other shapes the same holds in every step whose collisions are those of a heap on open ground (C149).", "quantifier": "all histories of all simulations of balls, with any number of bodies, all steps, joints, frictions, and all numbers of iterations beyond a bound", "why_tests_cant": "Any number of balls and any history, and a limit in the number of iterations.", "anchors": ["space.go:540-646", "collision.go:88-105", "collision.go:111-141", "arbiter.go:117-185"]}
