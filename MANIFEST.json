{
 "claims": [
  {
   "property": "C01",
   "status": "proved",
   "theorems": [
    "Cm.C01_hashset_refines_set",
    "Cm.C01_spec_elements_distinct"
   ],
   "note": ""
  },
  {
   "property": "C02",
   "status": "proved",
   "theorems": [
    "Cm.C02_hashset_load",
    "Cm.C02_resize_preserves"
   ],
   "note": ""
  },
  {
   "property": "C03",
   "status": "proved",
   "theorems": [
    "Cm.C03_registry",
    "Cm.C03_undisturbed"
   ],
   "note": ""
  },
  {
   "property": "C04",
   "status": "proved",
   "theorems": [
    "Cm.C04_shape_order",
    "Cm.C04_default_wildcards",
    "Cm.C04_needs_unreserved",
    "Cm.C04_reserved"
   ],
   "note": "Shape types are not the reserved wildcard type; C04_needs_unreserved shows this is needed, and C04_reserved which it is. Wildcard callbacks make no wildcard calls themselves."
  },
  {
   "property": "C05",
   "status": "proved",
   "theorems": [
    "Cm.C05_reject_symm",
    "Cm.C05_same_group",
    "Cm.C05_none_rejects",
    "Cm.C05_accept_iff",
    "Cm.C05_all_accepts"
   ],
   "note": ""
  },
  {
   "property": "C06",
   "status": "proved",
   "theorems": [
    "Cm.C06_finds_every_pair"
   ],
   "note": "Boxes are proper (L<=R, B<=T); numbers in an ordered field."
  },
  {
   "property": "C07",
   "status": "proved",
   "theorems": [
    "Cm.C07_no_pair_twice"
   ],
   "note": ""
  },
  {
   "property": "C08",
   "status": "proved",
   "theorems": [
    "Cm.C08_contents"
   ],
   "note": ""
  },
  {
   "property": "C09",
   "status": "proved",
   "theorems": [
    "Cm.C09_tree_query",
    "Cm.C09_space_bbquery"
   ],
   "note": "BBQuery assumes shapes still have the box they were last indexed with."
  },
  {
   "property": "C10",
   "status": "proved",
   "theorems": [
    "Cm.C10_tight_boxes"
   ],
   "note": ""
  },
  {
   "property": "C100",
   "status": "proved",
   "theorems": [
    "Cm.C100_contacts",
    "Cm.C100_edges",
    "Cm.C100_apart",
    "Cm.C100_inside",
    "Cm.C100_box",
    "Cm.C100_rod",
    "Cm.C100_end_on",
    "Cm.C100_end_missed"
   ],
   "note": "For the pairs handled by ContactPoints. C100_inside uses C101_foot. C100_end_on covers rods seen end-on as far as the code copes with them; C100_end_missed shows that the other ones get no contact."
  },
  {
   "property": "C101",
   "status": "proved",
   "theorems": [
    "Cm.C101_short",
    "Cm.C101_foot",
    "Cm.C101_shortest"
   ],
   "note": "EPA's stop with the zero normal, which needs a zero-length edge in its chain, is excluded by hypothesis in C101_foot and C101_shortest; C101_short covers it and the iteration limit."
  },
  {
   "property": "C102",
   "status": "partial",
   "theorems": [
    "Cm.C102_pair_partial",
    "Cm.C102_contacts_partial",
    "Cm.C102_end_on"
   ],
   "note": "Proved under the assumption that each closest-point search stops by itself with a usable answer, and that a rod parallel to the normal has its second end in front or stands over a shape that goes on to the one side (SearchSettled); C106_settled reduces this assumption for shapes with up to eight corners together. Violated without it: C102_end_on gives two overlapping shapes without contact."
  },
  {
   "property": "C103",
   "status": "proved",
   "theorems": [
    "Cm.C103_circle",
    "Cm.C103_ring",
    "Cm.C103_segment",
    "Cm.C103_poly"
   ],
   "note": "Over the reals. Polygons strictly convex and counter-clockwise, which the constructors guarantee (C52, C95)."
  },
  {
   "property": "C104",
   "status": "partial",
   "theorems": [
    "Cm.C104_poly",
    "Cm.C104_ring",
    "Cm.C104_circle",
    "Cm.C104_poly_info_partial",
    "Cm.C104_box",
    "Cm.C104_segment_partial",
    "Cm.C104_segment_moment",
    "Cm.C104_rod"
   ],
   "note": "Over the reals. Proved for centroids of polygons and segments and for the moments of polygons without rounding, circles and boxes. Violated by the moment of every segment with rounding, which is that of a rectangle and too large (C104_segment_moment). The moment of a rounded polygon is that of the polygon without its rounding."
  },
  {
   "property": "C105",
   "status": "proved",
   "theorems": [
    "Cm.C105_step",
    "Cm.C105_holds",
    "Cm.C105_bins",
    "Cm.C105_query",
    "Cm.C105_pairs",
    "Cm.C105_ray"
   ],
   "note": "Callbacks do not use the index; ray casts under the conditions of C93; the handle set is as in C01/C94 and the pool of handles as in C58."
  },
  {
   "property": "C106",
   "status": "proved",
   "theorems": [
    "Cm.C106_gjk_ends",
    "Cm.C106_gjk",
    "Cm.C106_gjk_linear",
    "Cm.support_count",
    "Cm.C106_epa",
    "Cm.C106_fresh",
    "Cm.C106_settled"
   ],
   "note": "Exact arithmetic. The middles of the two boxes must differ (else the first direction is zero) and polygons must not have all corners on a line."
  },
  {
   "property": "C107",
   "status": "partial",
   "theorems": [
    "Cm.C107_body",
    "Cm.C107_shape_partial",
    "Cm.C107_sensor",
    "Cm.C107_joint",
    "Cm.C107_geometry",
    "Cm.C107_static",
    "Cm.C107_resting"
   ],
   "note": "Proved for all setters except those of the geometry of shapes. Violated: SetRadius, SetEndpoints and SetVerts wake nobody (C107_geometry), and a change of a shape of a static body does not wake what rests on it (C107_static, C107_resting)."
  },
  {
   "property": "C108",
   "status": "partial",
   "theorems": [
    "Cm.C108_shape",
    "Cm.C108_spring",
    "Cm.C108_contact",
    "Cm.C108_groove",
    "Cm.C108_space_partial",
    "Cm.C108_joint_missing",
    "Cm.C108_flags"
   ],
   "note": "The code violates two parts, proved with witnesses: joints of sleeping bodies are not drawn (C108_joint_missing), and the flags of the drawer are never read (C108_flags). The rest is proved. The zigzag is for springs whose ends are apart."
  },
  {
   "property": "C109",
   "status": "partial",
   "theorems": [
    "Cm.C109_cached",
    "Cm.C109_box",
    "Cm.C109_collide_partial",
    "Cm.C109_shifted",
    "Cm.C109_found",
    "Cm.C109_arbiter",
    "Cm.C109_concentric",
    "Cm.C109_fresh_turned"
   ],
   "note": "Proved for displacements in full (C109_box, C109_shifted, C109_found), and for turns when the search continues from kept points or starts along the turned axis, and circles are not concentric (C109_collide_partial). Violated for the other turns: C109_concentric, C109_fresh_turned. inf must exceed the products of coordinates met, as infinity does."
  },
  {
   "property": "C11",
   "status": "proved",
   "theorems": [
    "Cm.C11_first_hit",
    "Cm.C11_all_hits",
    "Cm.C11_end_hit_depends_on_tree"
   ],
   "note": "A hit exactly at fraction 1 may be pruned; this is shown by C11_end_hit_depends_on_tree."
  },
  {
   "property": "C110",
   "status": "proved",
   "theorems": [
    "Cm.C110_history",
    "Cm.C110_pairs",
    "Cm.C110_queries",
    "Cm.C110_detect",
    "Cm.C110_box"
   ],
   "note": "C110_detect: for displacements, under the bounds of C109."
  },
  {
   "property": "C111",
   "status": "proved",
   "theorems": [
    "Cm.C111_step",
    "Cm.C111_refines",
    "Cm.C111_particle",
    "Cm.C111_momentum"
   ],
   "note": "Sleeping is not in this model (see C22-C24); user callbacks only accept or reject."
  },
  {
   "property": "C112",
   "status": "proved",
   "theorems": [
    "Cm.C112_run",
    "Cm.C112_seen"
   ],
   "note": "Exact arithmetic; grooves have unit normals (groove_joint.go:25-37)."
  },
  {
   "property": "C113",
   "status": "partial",
   "theorems": [
    "Cm.C113_balls",
    "Cm.C113_found_partial"
   ],
   "note": "C113_balls proves the full statement, with no further assumption, for spaces in which of any two shapes that can meet one is a ball and the other a ball or a rod. C113_found_partial is the statement for balls, rods and polygons, assuming that the searches for closest points of the step settle (stop by themselves, with end-on rods placed as the code can cope with); without that it is false (C102_end_on)."
  },
  {
   "property": "C114",
   "status": "proved",
   "theorems": [
    "Cm.C114_phases",
    "Cm.C114_callbacks"
   ],
   "note": "For every legal history of the whole simulation the state of each kept arbiter stands for the phase of its shapes in a three-state automaton driven by geometry, and the calls of BeginFunc and SeparateFunc are exactly its transitions, each once. Assumed of the steps: nobody sleeps and the searches for closest points settle (nothing needed for balls among balls and rods)."
  },
  {
   "property": "C115",
   "status": "proved",
   "theorems": [
    "Cm.C115_step",
    "Cm.C115_steps",
    "Cm.C115_alone",
    "Cm.C115_driven",
    "Cm.C115_still"
   ],
   "note": "For the model in which a loop over links reads and writes the bodies by number; the order of links outside the group is free. The whole-simulation parts are C115_alone, C115_driven and C115_still; nobody is asleep in the model."
  },
  {
   "property": "C116",
   "status": "proved",
   "theorems": [
    "Cm.C116_cone",
    "Cm.C116_memory"
   ],
   "note": "C116_cone is (1) for all histories, shapes with non-negative friction; C116_memory is (2) to (5) for legal histories with CollisionPersistence at least 1. Nobody is asleep in the model; the callbacks only accept or reject."
  },
  {
   "property": "C117",
   "status": "proved",
   "theorems": [
    "Cm.C117_box",
    "Cm.C117_nearest",
    "Cm.C117_ray",
    "Cm.C117_stale"
   ],
   "note": "After any legal history with nothing stale, for all figures placed where floats can tell them from infinity; rays that start level with a rod are excluded (C79_level). C117_stale shows what happens to stale shapes."
  },
  {
   "property": "C118",
   "status": "proved",
   "theorems": [
    "Cm.C118_step",
    "Cm.C118_steps",
    "Cm.C118_other_length"
   ],
   "note": "Solver level: the collisions of a step are an input (found again with the same impulses). C118_other_length is the witness for steps of another length."
  },
  {
   "property": "C119",
   "status": "proved",
   "theorems": [
    "Cm.C119_heap",
    "Cm.C119_settled",
    "Cm.C119_floor"
   ],
   "note": "C119_heap: after any legal history, with the equilibrium of C118 under the collisions the next step finds. C119_settled: the same from a step that has left the bodies alone. C119_floor: end to end from an empty space, nothing assumed about collisions or impulses."
  },
  {
   "property": "C12",
   "status": "partial",
   "theorems": [
    "Cm.C12_thick_query_misses"
   ],
   "note": "The property is false for the code; the negation is proved with a witness. The zero radius case is C11."
  },
  {
   "property": "C120",
   "status": "proved",
   "theorems": [
    "Cm.C120_balls",
    "Cm.C120_ground"
   ],
   "note": "Contacts whose normal passes through the centre of gravity of each body that can be turned: two balls, or a ball and a rod on a body with infinite moment. Off-centre contacts converge only in the limit (C36_target_partial)."
  },
  {
   "property": "C121",
   "status": "proved",
   "theorems": [
    "Cm.C121_flight",
    "Cm.C121_boxes",
    "Cm.C121_parabola",
    "Cm.C121_damped",
    "Cm.C121_energy",
    "Cm.C121_thrown"
   ],
   "note": "Flight of an untouched body in the whole simulation, for balls and rods by touching and for all shapes by boxes; closed forms with and without damping; energy; a ball thrown above a floor needs no assumption about the run."
  },
  {
   "property": "C122",
   "status": "proved",
   "theorems": [
    "Cm.C122_floor",
    "Cm.C122_converges",
    "Cm.C122_gap"
   ],
   "note": "Exact geometric rate for a ball in a level floor, by induction over the steps of the whole simulation; one-step statement for every collision covered by C120."
  },
  {
   "property": "C123",
   "status": "proved",
   "theorems": [
    "Cm.C123_balls",
    "Cm.C123_ground"
   ],
   "note": "Needs that nothing else touches the two bodies, and that the collision is new or has gone on with the same step length (Known); with several contacts at once C85 applies."
  },
  {
   "property": "C124",
   "status": "proved",
   "theorems": [
    "Cm.C124_floor",
    "Cm.C124_terminal"
   ],
   "note": "C124_floor: the depth is bounded by V*dt as long as the ball is over the floor and falls with at most V while it touches nothing; C124_terminal: with damping and elasticity 0 the terminal velocity serves as V. Both end at the edge of the floor: nothing is said about a ball that rolls off."
  },
  {
   "property": "C125",
   "status": "proved",
   "theorems": [
    "Cm.C125_motion",
    "Cm.C125_slip",
    "Cm.C125_rolls",
    "Cm.C125_slides",
    "Cm.C125_settles"
   ],
   "note": "C125_motion: the whole simulation follows the small specification Rolled.next, step by step; C125_slip, C125_slides, C125_rolls: what that motion is after n steps; C125_settles: the same of the whole simulation. Without damping and correction of overlaps (the ball lies within the allowed overlap)."
  },
  {
   "property": "C126",
   "status": "proved",
   "theorems": [
    "Cm.C126_gear_step",
    "Cm.C126_motor_step",
    "Cm.C126_limit_step",
    "Cm.C126_gear",
    "Cm.C126_geometric",
    "Cm.C126_motor",
    "Cm.C126_limit"
   ],
   "note": "In the simulation of C111, for motor, gear and rotary limit joints; the joint must be the only one between its two bodies, and no collision may act on them unless on an immovable one (Unaffected, Borne). Over many steps the hypothesis is that the reported impulse stays below maxForce*dt; the one-step theorems say what happens otherwise. One or the other of the bodies may be static. The ratchet and the linear joints have the one-application law only (C39)."
  },
  {
   "property": "C127",
   "status": "partial",
   "theorems": [
    "Cm.C127_vertexes_partial",
    "Cm.C127_flat_left",
    "Cm.C127_short"
   ],
   "note": "C127_vertexes_partial: SimplifyVertexes is exactly the greedy dropping of flat vertexes, and C127_short: IsShort compares exactly the length of the way. That no corner flatter than the tolerance is left is false: C127_flat_left gives a line where the corner before a dropped vertex becomes flat and stays, and simplifying again changes the line."
  },
  {
   "property": "C128",
   "status": "proved",
   "theorems": [
    "Cm.C128_corrections",
    "Cm.C128_impacts",
    "Cm.C128_unique",
    "Cm.C128_still",
    "Cm.C128_still_impacts",
    "Cm.C128_solver",
    "Cm.C128_solver_impacts"
   ],
   "note": "The existence of a solution is a hypothesis: overlaps between two immovable walls may have none. The convergence of the velocities proper is for collisions without friction and joints."
  },
  {
   "property": "C129",
   "status": "proved",
   "theorems": [
    "Cm.C129_world",
    "Cm.C129_joints",
    "Cm.C129_slower",
    "Cm.C129_rest",
    "Cm.C129_rest_world"
   ],
   "note": "In any arithmetic with monotone rounding; binary64 (nearest, ties to even, subnormals; no overflow, NaN or signed zeros) is proved to be one, and the examples are computed in it. The mathematical functions are arbitrary. C129_joints speaks of pin, slide, gear, motor and rotary limit joints; C129_rest of all ten kinds. In C129_rest the contacts of each step are given; in C129_rest_world they are those the library finds in one step."
  },
  {
   "property": "C13",
   "status": "proved",
   "theorems": [
    "Cm.C13_segmentQuery_exact",
    "Cm.C13_intersectsSegment"
   ],
   "note": ""
  },
  {
   "property": "C130",
   "status": "proved",
   "theorems": [
    "Cm.C130_impulses",
    "Cm.C130_forces",
    "Cm.C130_force_is_impulse",
    "Cm.C130_momentum",
    "Cm.C130_work",
    "Cm.C130_energy_twice"
   ],
   "note": "KineticEnergy is documented as the kinetic energy but is twice that (C130_energy_twice); see DESIGN.md. C130_momentum and C130_work are for bodies of finite mass and moment."
  },
  {
   "property": "C131",
   "status": "proved",
   "theorems": [
    "Cm.C131_slow",
    "Cm.C131_rest_is_slow",
    "Cm.C131_recent",
    "Cm.C131_awake"
   ],
   "note": "idle decision over ordered fields (infinite masses not modelled); history over all allowed calls"
  },
  {
   "property": "C132",
   "status": "partial",
   "theorems": [
    "Cm.C132_contains",
    "Cm.C132_static",
    "Cm.C132_dynamic_partial",
    "Cm.C132_total",
    "Cm.C132_asleep_uncounted",
    "Cm.C132_kinematic_counted"
   ],
   "note": "DynamicBodyCount counts awake non-static bodies, not dynamic ones: the full statement fails (C132_asleep_uncounted, C132_kinematic_counted); the rest is proved in full"
  },
  {
   "property": "C133",
   "status": "proved",
   "theorems": [
    "Cm.C133_step",
    "Cm.C133_hinge",
    "Cm.C133_centres",
    "Cm.C133_real"
   ],
   "note": "A world of any number of bodies, joints and shapes in which nothing but the hinge acts on its two bodies. The step theorem holds in any ordered field; the bound of the swerve needs real numbers."
  },
  {
   "property": "C134",
   "status": "proved",
   "theorems": [
    "Cm.C134_step",
    "Cm.C134_step_rope",
    "Cm.C134_rod",
    "Cm.C134_rope",
    "Cm.C134_surplus",
    "Cm.C134_real",
    "Cm.C134_real_rope"
   ],
   "note": "As C133. Nothing but the joint acts on the two bodies. The step theorems, the bounds over many steps and the bound of the surplus hold in any ordered field with a square root; the bound of the swerve needs real numbers."
  },
  {
   "property": "C135",
   "status": "proved",
   "theorems": [
    "Cm.C135_step",
    "Cm.C135_law",
    "Cm.C135_bounded",
    "Cm.C135_swings",
    "Cm.C135_soft",
    "Cm.C135_runs_away",
    "Cm.C135_terms",
    "Cm.C135_rests"
   ],
   "note": "The default torque function; step length and settings constant over the run; both bodies free to turn or fixed, and no other torque. The limit is over the reals."
  },
  {
   "property": "C136",
   "status": "proved",
   "theorems": [
    "Cm.C136_step",
    "Cm.C136_areas",
    "Cm.C136_line",
    "Cm.C136_bounded",
    "Cm.C136_rests",
    "Cm.C136_orbit"
   ],
   "note": "Springs between centres of gravity; step length and settings constant over the run; both bodies fall alike or are fixed without gravity. The force function depends on the distance only. The limit is over the reals; C136_orbit assumes exp 0 = 1."
  },
  {
   "property": "C137",
   "status": "proved",
   "theorems": [
    "Cm.C137_step",
    "Cm.C137_memory",
    "Cm.highest_unique",
    "Cm.C137_first",
    "Cm.C137_holds",
    "Cm.C137_returns",
    "Cm.C137_gives_back"
   ],
   "note": "Exact arithmetic; no other joint or contact acts on the two bodies (Plain). The strength of the joint is a hypothesis of C137_holds and C137_returns only. C137_gives_back: a new ratchet lets go of the angle it was made at."
  },
  {
   "property": "C138",
   "status": "proved",
   "theorems": [
    "Cm.C138_step",
    "Cm.C138_strut",
    "Cm.C138_real"
   ],
   "note": "No other joint or contact acts on the two bodies (Swings); the strength of the joint is a hypothesis of the strut theorems. Exact arithmetic."
  },
  {
   "property": "C139",
   "status": "proved",
   "theorems": [
    "Cm.C139_tooth",
    "Cm.C139_keeps",
    "Cm.C139_one",
    "Cm.C139_lost",
    "Cm.C139_released"
   ],
   "note": "float64 as Spec/Float models it (round to nearest even, subnormals, no overflow). Phase 0 and a positive distance of the teeth; the loss of one tooth is a fault of the code, shown with a witness."
  },
  {
   "property": "C14",
   "status": "proved",
   "theorems": [
    "Cm.C14_containsVect",
    "Cm.C14_contains",
    "Cm.C14_intersects",
    "Cm.C14_intersects_symm",
    "Cm.C14_merge_least",
    "Cm.C14_expand_least",
    "Cm.C14_contains_order",
    "Cm.C14_mergedArea",
    "Cm.C14_area_mono",
    "Cm.C14_center",
    "Cm.C14_offset",
    "Cm.C14_forExtents",
    "Cm.C14_proximity"
   ],
   "note": ""
  },
  {
   "property": "C140",
   "status": "proved",
   "theorems": [
    "Cm.C140_same",
    "Cm.C140_miss",
    "Cm.C140_balanced",
    "Cm.C140_kick",
    "Cm.C140_step",
    "Cm.C140_groove"
   ],
   "note": "The exact error of the joint between its ends, that iterations do not change it, and exact decay for a centre of gravity in a groove of the ground. At the ends: C39_groove_stop. The kick is a fault of the code."
  },
  {
   "property": "C141",
   "status": "proved",
   "theorems": [
    "Cm.C141_total",
    "Cm.C141_query",
    "Cm.C141_pairs",
    "Cm.C141_static",
    "Cm.C141_cell",
    "Cm.C141_next",
    "Cm.C141_consistent"
   ],
   "note": "The range of int is not modelled. The model of the table and the handles is that of C57."
  },
  {
   "property": "C142",
   "status": "proved",
   "theorems": [
    "Cm.C142_safe",
    "Cm.C142_start",
    "Cm.C142_missed",
    "Cm.C142_start_missed"
   ],
   "note": "That the loop ends is assumed. What a ray cast reports beyond the cell of its start is stated in exact arithmetic only (C93)."
  },
  {
   "property": "C143",
   "status": "proved",
   "theorems": [
    "Cm.C143_column",
    "Cm.C143_row",
    "Cm.C143_all"
   ],
   "note": ""
  },
  {
   "property": "C144",
   "status": "proved",
   "theorems": [
    "Cm.C144_joints_meet",
    "Cm.C144_nearer",
    "Cm.C144_prepared"
   ],
   "note": "Every joint is a projection onto its equations in the inner product of the kinetic energy; a round of projections contracts what is left by a fixed factor. Slide, groove, ratchet and rotary limit joints (one-sided), springs and contacts are not covered; contacts alone are C128. That no joint reaches its greatest force is assumed (the default is no limit)."
  },
  {
   "property": "C145",
   "status": "proved",
   "theorems": [
    "Cm.C145_strong_enough",
    "Cm.C145_hold"
   ],
   "note": "The impulses of successive iterations are dominated by a geometric series. All joints are given the same greatest force. Covers the same kinds of joints as C144."
  },
  {
   "property": "C146",
   "status": "proved",
   "theorems": [
    "Cm.C146_all_meet",
    "Cm.C146_nearer",
    "Cm.C146_bounded"
   ],
   "note": "Any mixture of frictionless contacts and pin, pivot, gear and motor joints below their greatest forces. C146_all_meet: everything is met as exactly as one likes; C146_nearer: the potential never grows; C146_bounded: contacts that start without impulses. Example: a disc that falls on a ledge beside its centre, kept from turning by a motor, whose fall halves in each iteration."
  },
  {
   "property": "C147",
   "status": "proved",
   "theorems": [
    "Cm.C147_settle",
    "Cm.C147_solver",
    "Cm.C147_unique",
    "Cm.C147_least"
   ],
   "note": "Contacts without friction, and pins, pivots, gears and motors below their greatest force; C147_settle: convergence to the solution, C147_solver: the same for the whole solver with its preparations, C147_unique: uniqueness, C147_least: it is the nearest of the allowed velocities. That a solution exists whenever anything meets what is asked for is C148."
  },
  {
   "property": "C148",
   "status": "proved",
   "theorems": [
    "Cm.C148_exists",
    "Cm.C148_iff",
    "Cm.C148_settle",
    "Cm.C148_contacts",
    "Cm.C148_corrections"
   ],
   "note": "C148_exists and C148_iff: a solution exists exactly if anything meets all that is asked for; C148_settle: then the iterations settle (Archimedean fields, no friction, joints below their greatest force, as in C147); C148_contacts, C148_corrections: contacts alone, velocities and corrections of overlap. exJam is a case without a solution."
  },
  {
   "property": "C149",
   "status": "proved",
   "theorems": [
    "Cm.C149_parts",
    "Cm.C149_overlaps",
    "Cm.C149_speeds",
    "Cm.C149_balls"
   ],
   "note": "C149_parts: the contacts of a heap on open ground can be parted; C149_overlaps: the corrections of the whole solver settle, with any friction and joints; C149_speeds: the velocities too, without friction and joints; C149_balls: normals of overlapping balls qualify."
  },
  {
   "property": "C15",
   "status": "proved",
   "theorems": [
    "Cm.C15_clampVect",
    "Cm.C15_wrapVect",
    "Cm.C15_wrapVect_unique"
   ],
   "note": ""
  },
  {
   "property": "C150",
   "status": "proved",
   "theorems": [
    "Cm.C150_trees",
    "Cm.C150_hold"
   ],
   "note": "C150_trees: trees of joints can be met; C150_hold: with enough force the iterations come to it (no contacts, as in C145)."
  },
  {
   "property": "C151",
   "status": "proved",
   "theorems": [
    "Cm.C151_swarm",
    "Cm.C151_speeds",
    "Cm.C151_step",
    "Cm.C151_ground",
    "Cm.C151_ground_speeds"
   ],
   "note": "After any history of balls, alone or on a ground of rods with a common point, the corrections of overlaps settle at flows that correct every overlap; without friction and joints so do the velocities. C151_step is the same for any shapes in a step whose collisions open. The limit is in the number of iterations, over an Archimedean field."
  },
  {
   "property": "C16",
   "status": "proved",
   "theorems": [
    "Cm.C16_disjoint",
    "Cm.C16_total",
    "Cm.C16_reuse"
   ],
   "note": ""
  },
  {
   "property": "C17",
   "status": "partial",
   "theorems": [
    "Cm.C17_alternate",
    "Cm.C17_touching",
    "Cm.C17_apart_partial",
    "Cm.C17_removed",
    "Cm.C17_late_separate"
   ],
   "note": "Alternation starting with Begin proved for every history and pair; touching pairs have begun, removed shapes' pairs have ended. The clause that Separate has been called once a pair has been apart for a step is violated when both bodies fall asleep in that very step (witness C17_late_separate); proved when a body could move before and after the step."
  },
  {
   "property": "C18",
   "status": "proved",
   "theorems": [
    "Cm.C18_refused",
    "Cm.C18_solved",
    "Cm.C18_accepted",
    "Cm.C18_remembered"
   ],
   "note": "After Begin returned false or Ignore was called nothing is called for the pair before Separate, in any history; exact calls of a step; PostSolve only for pairs accepted in the step or with a body asleep before it; a false from PreSolve is not remembered."
  },
  {
   "property": "C19",
   "status": "proved",
   "theorems": [
    "Cm.C19_removeShape"
   ],
   "note": "After RemoveShape, in any reachable state: no list mentions the shape's collisions, and Separate was called exactly once for those begun and not ended, nothing else."
  },
  {
   "property": "C20",
   "status": "partial",
   "theorems": [
    "Cm.C20_order",
    "Cm.C20_step_partial",
    "Cm.C20_dropped"
   ],
   "note": "Calls made so far followed by those pending are exactly the accepted registrations made outside post-step callbacks, in order; every step ends with none pending; at most one pending per key. A callback registered by a post-step callback is accepted and then dropped (witness), so the full statement fails."
  },
  {
   "property": "C21",
   "status": "proved",
   "theorems": [
    "Cm.C21_depth",
    "Cm.C21_ends",
    "Cm.C21_wakes",
    "Cm.C20_order",
    "Cm.C21_bbQuery_unlocked"
   ],
   "note": "For every program of nested operations and callbacks: it ends, the depth is restored, wake-ups are made at depth zero and all of them by the time the depth is zero, post-step callbacks are called at depth zero and never inside one another. BBQuery calls the static callbacks unlocked."
  },
  {
   "property": "C22",
   "status": "proved",
   "theorems": [
    "Cm.C22_eachBody",
    "Cm.C22_eachDynamicBody",
    "Cm.C22_eachStaticBody"
   ],
   "note": "For every state reached from a new space by allowed calls: EachBody, EachDynamicBody and EachStaticBody list the bodies added and not removed, of the right type, each exactly once. The enumeration is of a function that makes no calls on the space."
  },
  {
   "property": "C23",
   "status": "proved",
   "theorems": [
    "Cm.C23_index",
    "Cm.C23_once",
    "Cm.C23_eachShape",
    "Cm.C23_count"
   ],
   "note": "Exactly one index holds each shape in the space, once; static/sleeping shapes in the static one. EachShape and ShapeCount agree."
  },
  {
   "property": "C24",
   "status": "proved",
   "theorems": [
    "Cm.C24_activate"
   ],
   "note": "Waking a body wakes its whole sleeping group and no other."
  },
  {
   "property": "C25",
   "status": "proved",
   "theorems": [
    "Cm.C25_components",
    "Cm.C25_idle",
    "Cm.C78_never_fails"
   ],
   "note": "After any allowed step: asleep iff no connected dynamic body has been idle for less than the threshold; groups are exactly the connected components; only dynamic bodies sleep; step never fails (the consistency check never fires). Links are described from the step's collisions, the sleeping contacts before it and the joints."
  },
  {
   "property": "C26",
   "status": "partial",
   "theorems": [
    "Cm.C26_setGravity",
    "Cm.C26_setGravity_partial",
    "Cm.C26_not_all_woken"
   ],
   "note": "Violated: exact list of groups left asleep (every second, without the last); holds with at most two groups asleep; three-group history where a body stays asleep."
  },
  {
   "property": "C27",
   "status": "partial",
   "theorems": [
    "Cm.C27_half_left",
    "Cm.C27_one_shape_partial",
    "Cm.C27_shapes_left"
   ],
   "note": "Violated: with n shapes exactly n/2 (rounded down) stay in the space, for every reachable state. The property holds for at most one shape."
  },
  {
   "property": "C28",
   "status": "partial",
   "theorems": [
    "Cm.C28_awake_partial",
    "Cm.C28_asleep_crashes",
    "Cm.C28_asleep_bare",
    "Cm.C28_static_to_dynamic_fatal"
   ],
   "note": "Proved for awake bodies. Violated for sleeping ones: always crashes if the body has a shape, otherwise leaves a sleeping body of a type that cannot sleep. A static body jointed to a sleeping one can be made dynamic, which makes the next step fatal."
  },
  {
   "property": "C29",
   "status": "partial",
   "theorems": [
    "Cm.C29_always_crashes",
    "Cm.C29_awake_partial"
   ],
   "note": "Violated: for every reachable state and sleeping body the call crashes. Proved for awake bodies."
  },
  {
   "property": "C30",
   "status": "proved",
   "theorems": [
    "Cm.Threads.C30_lists",
    "Cm.Threads.C30_rejects",
    "Cm.Threads.C30_remove_absent"
   ],
   "note": "Heap-level model of the linked lists. Two distinct bodies per joint; removing a joint that is not there is a nil dereference (C30_remove_absent)."
  },
  {
   "property": "C31",
   "status": "proved",
   "theorems": [
    "Cm.Threads.C31_lists",
    "Cm.Threads.C31_detach",
    "Cm.Threads.C31_push_twice"
   ],
   "note": "Heap-level model of the linked lists. Attaching needs the contact not to be attached; the space breaks this when a sleeping body is woken from a collision callback, and then the list becomes circular (C31_push_twice)."
  },
  {
   "property": "C32",
   "status": "proved",
   "theorems": [
    "Cm.C32_mass_properties",
    "Cm.C32_order",
    "Cm.C32_position"
   ],
   "note": "Activate (waking) is modelled separately."
  },
  {
   "property": "C33",
   "status": "proved",
   "theorems": [
    "Cm.C33_position_angle",
    "Cm.C33_conversions",
    "Cm.C33_turns_about_cog",
    "Cm.C33_velocity",
    "Cm.C33_setTransform_not_kept"
   ],
   "note": "All bodies reachable from NewBody by public setters and default integration; the exported SetTransform is excluded (C33_setTransform_not_kept shows it leaves angle and position stale)."
  },
  {
   "property": "C34",
   "status": "proved",
   "theorems": [
    "Cm.C34_linear",
    "Cm.C34_angular"
   ],
   "note": "Also for the correction velocities. Bodies of an arbiter are distinct."
  },
  {
   "property": "C35",
   "status": "proved",
   "theorems": [
    "Cm.C35_cone",
    "Cm.C35_cone_kept"
   ],
   "note": ""
  },
  {
   "property": "C36",
   "status": "partial",
   "theorems": [
    "Cm.C36_target_partial",
    "Cm.C36_frictionless",
    "Cm.C36_central",
    "Cm.C36_exact",
    "Cm.C36_friction_disturbs"
   ],
   "note": "False as stated when friction is applied off centre, since normal and tangential impulses are computed together (C36_friction_disturbs). Proved without friction, and with friction where the normal passes through the centres; C36_exact gives the exact velocity in all cases."
  },
  {
   "property": "C37",
   "status": "proved",
   "theorems": [
    "Cm.C37_limit",
    "Cm.C37_limit_always",
    "Cm.C37_slide_coincident"
   ],
   "note": "Slide joints whose anchors coincide below the minimum length are excluded unless the time step is fixed (C37_slide_coincident)."
  },
  {
   "property": "C38",
   "status": "proved",
   "theorems": [
    "Cm.C38_preStep",
    "Cm.C38_cached",
    "Cm.C38_iteration",
    "Cm.C38_spin",
    "Cm.C38_gear_ratio"
   ],
   "note": "A gear whose ratio is not 1 does not conserve spin: C38_gear_ratio."
  },
  {
   "property": "C39",
   "status": "proved",
   "theorems": [
    "Cm.C39_pin",
    "Cm.C39_slide_long",
    "Cm.C39_slide_short",
    "Cm.C39_pivot",
    "Cm.C39_groove_stop",
    "Cm.C39_motor",
    "Cm.C39_gear",
    "Cm.C39_rotaryLimit",
    "Cm.C39_ratchet"
   ],
   "note": "The groove joint is covered at the stops of the groove (C39_groove_stop); along the groove a single projected iteration does not meet the target exactly and the property does not claim it."
  },
  {
   "property": "C40",
   "status": "proved",
   "theorems": [
    "Cm.C40_slide_inside",
    "Cm.C40_rotaryLimit_inside",
    "Cm.C40_ratchet_inside",
    "Cm.C40_slide_inward",
    "Cm.C40_rotaryLimit_inward",
    "Cm.C40_ratchet_inward",
    "Cm.C40_rotaryLimit_warm_start"
   ],
   "note": "Direction is that of the accumulated impulse after each iteration. A rotary limit joint's warm start alone can push outwards: C40_rotaryLimit_warm_start."
  },
  {
   "property": "C41",
   "status": "proved",
   "theorems": [
    "Cm.C41_mult_apply",
    "Cm.C41_applyVector",
    "Cm.C41_inverse",
    "Cm.C41_inverse_needs_det",
    "Cm.C41_rigid",
    "Cm.C41_wrap",
    "Cm.C41_ortho",
    "Cm.C41_boneScale",
    "Cm.C41_axialScale"
   ],
   "note": ""
  },
  {
   "property": "C42",
   "status": "proved",
   "theorems": [
    "Cm.C42_bb_contains_image",
    "Cm.C42_bb_least"
   ],
   "note": ""
  },
  {
   "property": "C43",
   "status": "proved",
   "theorems": [
    "Cm.C43_box_contains_cached",
    "Cm.C43_box_contains_shape",
    "Cm.C43_overlap_boxes",
    "Cm.C43_box_tight"
   ],
   "note": "CacheData's box contains every point of circles, segments and polygons (with rounding radius) under any transform; overlapping shapes have intersecting boxes; the box is tight"
  },
  {
   "property": "C44",
   "status": "proved",
   "theorems": [
    "Cm.C44_circles",
    "Cm.C44_circle_segment",
    "Cm.C44_no_tangents"
   ],
   "note": "Circle/circle and circle/segment collisions; the tangents of segments are never set in the code, so the end-cap condition always holds (C44_no_tangents)."
  },
  {
   "property": "C45",
   "status": "partial",
   "theorems": [
    "Cm.flip_once",
    "Cm.C45_points",
    "Cm.C45_gjk_partial",
    "Cm.C45_epa",
    "Cm.C45_collinear",
    "Cm.C45_ghost"
   ],
   "note": "Reported points always belong to the shapes; GJK's points are a nearest pair and EPA's distance is the exact separation along its normal (and the shortest, see C101). Violated: for collinear Minkowski points GJK reports distance 0 for shapes that are apart (C45_collinear, C45_ghost). Runs cut off at the iteration limit are covered by C45_points and C101_short only; C106 says which runs can not be cut off."
  },
  {
   "property": "C46",
   "status": "proved",
   "theorems": [
    "Cm.C46_distance",
    "Cm.C46_nearest_surface_point",
    "Cm.C46_gradient",
    "Cm.C46_segment_on_skeleton",
    "Cm.C46_poly_distance",
    "Cm.C46_outline",
    "Cm.C46_signed",
    "Cm.C46_nearest"
   ],
   "note": "distance, surface point and gradient on circles and segments off the skeleton; strictly convex polygons of any size; PointQueryNearest minimal over the whole space. On the skeleton of a segment the point reported is not on the surface (C46_segment_on_skeleton)"
  },
  {
   "property": "C47",
   "status": "proved",
   "theorems": [
    "Cm.C47_circle",
    "Cm.C47_inside",
    "Cm.C47_shape",
    "Cm.C47_start_inside"
   ],
   "note": "Circle ray cast; a start inside reports alpha 0 with the far end as point (C47_start_inside)."
  },
  {
   "property": "C48",
   "status": "partial",
   "theorems": [
    "Cm.C48_sorted_partial",
    "Cm.C48_swapped",
    "Cm.C48_rounded",
    "Cm.C48_witness"
   ],
   "note": "Holds with arguments in sorted order without rounded polygons; violated for swapped arguments (sign) and for circles against rounded polygons."
  },
  {
   "property": "C49",
   "status": "partial",
   "theorems": [
    "Cm.C49_last",
    "Cm.C49_solid_partial",
    "Cm.C49_order"
   ],
   "note": "Violated: the last overlapping shape decides, so a sensor reported last hides a solid overlap; exact when no overlapping shape is a sensor."
  },
  {
   "property": "C50",
   "status": "proved",
   "theorems": [
    "Cm.C50_velocity",
    "Cm.C50_position",
    "Cm.C50_telescope",
    "Cm.C50_damped"
   ],
   "note": ""
  },
  {
   "property": "C51",
   "status": "proved",
   "theorems": [
    "Cm.C51_step",
    "Cm.C51_history"
   ],
   "note": "Step with zero time is the identity on the bookkeeping state including the record of callbacks, over whole histories."
  },
  {
   "property": "C52",
   "status": "proved",
   "theorems": [
    "Cm.C52_hull",
    "Cm.C52_same_points",
    "Cm.C52_strict",
    "Cm.C52_collinear"
   ],
   "note": "convexHull with tolerance 0 (every caller), for any nonempty list: no index out of range, vertexes are distinct input points, counter-clockwise, every input point left of or on each side and a mixture of the vertexes. The hull may keep a vertex on a side (C52_collinear); with no three points in line it is strictly convex."
  },
  {
   "property": "C53",
   "status": "proved",
   "theorems": [
    "Cm.C53_pairs",
    "Cm.C53_collect"
   ],
   "note": "Any sequence of segments into any set of lines, with multiplicity; every line has at least two vertexes."
  },
  {
   "property": "C54",
   "status": "partial",
   "theorems": [
    "Cm.C54_vertexes_open",
    "Cm.C54_vertexes_partial",
    "Cm.C54_vertexes_closed",
    "Cm.C54_curves_open_partial",
    "Cm.C54_curves_sublist_partial",
    "Cm.C54_curves_closed_partial",
    "Cm.C54_curves_crash",
    "Cm.C54_curves_negative"
   ],
   "note": "SimplifyVertexes: never crashes, exact on open polylines; violated on closed ones (C54_vertexes_closed). SimplifyCurves: proved for tolerances >= 0 when no two vertexes are nearer than half the tolerance; otherwise it crashes (C54_curves_crash) and with a negative tolerance it recurses for ever (C54_curves_negative)."
  },
  {
   "property": "C55",
   "status": "proved",
   "theorems": [
    "Cm.C55_soft",
    "Cm.C55_hard",
    "Cm.C55_everywhere"
   ],
   "note": "Soft and hard, any samples and threshold: balance off the border of the box, and everywhere if no border sample is above the threshold."
  },
  {
   "property": "C56",
   "status": "proved",
   "theorems": [
    "Cm.C56_cells",
    "Cm.C56_points_nodup"
   ],
   "note": "The calls of the cell function and of the sampling function are given exactly; every grid point is sampled once."
  },
  {
   "property": "C57",
   "status": "proved",
   "theorems": [
    "Cm.C57_total",
    "Cm.C57_query",
    "Cm.C57_pairs",
    "Cm.C57_static",
    "Cm.C57_reindex_loses",
    "Cm.C57_nested_misses"
   ],
   "note": "Over every history of Insert, Remove, ReindexObject, Query and ReindexQuery. Hash collisions of cells are part of the statement: a query reports exactly the shapes with a table place in common. Also shown: SpatialIndex.Reindex (never called by the library) empties the table, and a query made inside a query callback skips shapes already reported."
  },
  {
   "property": "C58",
   "status": "proved",
   "theorems": [
    "Cm.C58_pool",
    "Cm.C58_taken"
   ],
   "note": "Every history of calls; the pool may hand out any pooled handle or a new one."
  },
  {
   "property": "C59",
   "status": "proved",
   "theorems": [
    "Cm.C59_read",
    "Cm.C59_roundtrip",
    "Cm.C59_write",
    "Cm.C59_ended"
   ],
   "note": "Read, write and both round trips, swapped or not. In the Separate handler the set read is empty and writing it back ends the program (C59_ended)."
  },
  {
   "property": "C60",
   "status": "partial",
   "theorems": [
    "Cm.C60_user_data_partial",
    "Cm.C60_postSolve_gets_handler"
   ],
   "note": "False for PostSolve (space.go:642 passes the handler); proved for all others, negation proved for PostSolve."
  },
  {
   "property": "C61",
   "status": "partial",
   "theorems": [
    "Cm.C61_area",
    "Cm.C61_centroid",
    "Cm.C61_parallel_partial",
    "Cm.C61_offset_partial",
    "Cm.C61_massInfo_partial",
    "Cm.C61_box",
    "Cm.C61_circle2",
    "Cm.C61_two_verts"
   ],
   "note": "Parallel axes, translation and box laws proved for every vertex list but two-vertex ones; violated by MomentForCircle2 (4 times too large) and by MomentForPoly with two vertexes (offset ignored)."
  },
  {
   "property": "C62",
   "status": "partial",
   "theorems": [
    "Cm.C62_setEndpoints"
   ],
   "note": "Violated: the end points agree but the normal is always the opposite of the constructor's."
  },
  {
   "property": "C63",
   "status": "proved",
   "theorems": [
    "Cm.C63_closest_on_segment"
   ],
   "note": ""
  },
  {
   "property": "C64",
   "status": "proved",
   "theorems": [
    "Cm.C64_warm_start",
    "Cm.C64_first",
    "Cm.C64_fresh_contacts"
   ],
   "note": "Any old and new contact lists; with repeated hashes the last old one wins."
  },
  {
   "property": "C65",
   "status": "proved",
   "theorems": [
    "Cm.C65_rebuild",
    "Cm.C65_useSpatialHash"
   ],
   "note": "From trees reached by any history of calls (C08)."
  },
  {
   "property": "C66",
   "status": "partial",
   "theorems": [
    "Cm.C66_always_panics",
    "Cm.C66_partial"
   ],
   "note": "False for every space NewSpace makes: SetStaticBody always panics and the static body stays. The stated effect holds only for a space without static body."
  },
  {
   "property": "C67",
   "status": "proved",
   "theorems": [
    "Cm.C67_reindex_visible"
   ],
   "note": ""
  },
  {
   "property": "C68",
   "status": "proved",
   "theorems": [
    "Cm.C68_spring",
    "Cm.C68_rotarySpring",
    "Cm.C68_energy"
   ],
   "note": ""
  },
  {
   "property": "C69",
   "status": "proved",
   "theorems": [
    "Cm.C69_groups"
   ],
   "note": "Sleeping groups: linked list of each root gives exactly its members; listed roots are exactly the roots of sleeping bodies."
  },
  {
   "property": "C70",
   "status": "proved",
   "theorems": [
    "Cm.C70_space_momentum"
   ],
   "note": ""
  },
  {
   "property": "C71",
   "status": "partial",
   "theorems": [
    "Cm.C71_linear",
    "Cm.C71_angular_partial",
    "Cm.C71_rotarySpring"
   ],
   "note": "False for the damped rotary spring, whose damping is counted with the wrong sign (C71_rotarySpring); proved for all other joints."
  },
  {
   "property": "C72",
   "status": "partial",
   "theorems": [
    "Cm.C72_total_partial",
    "Cm.C72_retouch"
   ],
   "note": "Fails for a pair that touches again within CollisionPersistence steps (C72_retouch): old impulses are taken over but not applied. C72_total_partial is the property for all other collisions."
  },
  {
   "property": "C73",
   "status": "proved",
   "theorems": [
    "Cm.C73_surface"
   ],
   "note": "Unit normal assumed."
  },
  {
   "property": "C74",
   "status": "proved",
   "theorems": [
    "Cm.Threads.C74_pairs",
    "Cm.Threads.C74_model"
   ],
   "note": "Heap-level model with the pool."
  },
  {
   "property": "C75",
   "status": "partial",
   "theorems": [
    "Cm.C75_push_partial",
    "Cm.C72_retouch"
   ],
   "note": "Fails for a pair that touches again within CollisionPersistence steps (C72_retouch). C75_push_partial is the property for all other collisions."
  },
  {
   "property": "C76",
   "status": "proved",
   "theorems": [
    "Cm.C76_pooled"
   ],
   "note": "For every history with persistence at least one."
  },
  {
   "property": "C77",
   "status": "partial",
   "theorems": [
    "Cm.C77_eachConstraint_partial",
    "Cm.C77_asleep_skipped"
   ],
   "note": "Violated: joints of sleeping bodies are skipped. Proved: EachConstraint lists exactly the joints neither of whose bodies sleeps, once each; witness of a skipped joint."
  },
  {
   "property": "C78",
   "status": "proved",
   "theorems": [
    "Cm.C78_never_fails",
    "Cm.C78_unadded_shape"
   ],
   "note": "Every allowed sequence of calls from a new space returns normally (the model's operations return none at each panic, Fatal, nil dereference and unbounded walk). Witness for one of the conditions."
  },
  {
   "property": "C79",
   "status": "partial",
   "theorems": [
    "Cm.C79_beside_partial",
    "Cm.C79_level"
   ],
   "note": "Exact for starts not level with the segment; a start level with the segment reports the exit point (C79_level)."
  },
  {
   "property": "C80",
   "status": "proved",
   "theorems": [
    "Cm.C80_poly"
   ],
   "note": "Polygon ray cast."
  },
  {
   "property": "C81",
   "status": "proved",
   "theorems": [
    "Cm.C81_closed",
    "Cm.C81_balance",
    "Cm.C81_two_starts"
   ],
   "note": "Closed when each point starts at most one segment and the counts balance; a witness shows a point starting two segments can leave lines open."
  },
  {
   "property": "C82",
   "status": "partial",
   "theorems": [
    "Cm.C54_curves_open_partial",
    "Cm.C54_curves_closed_partial",
    "Cm.C82_doubling_back"
   ],
   "note": "Distance to the line through the kept neighbours is at most the tolerance (part of the C54 curve theorems); the documented distance bound is violated where the polyline doubles back."
  },
  {
   "property": "C83",
   "status": "proved",
   "theorems": [
    "Cm.C83_soft",
    "Cm.C83_hard",
    "Cm.C81_passing"
   ],
   "note": "Through C55 and the collection theorem for points that are passed more than once."
  },
  {
   "property": "C84",
   "status": "proved",
   "theorems": [
    "Cm.C84_outside",
    "Cm.C84_inside"
   ],
   "note": "All sixteen cases, samples at the threshold included."
  },
  {
   "property": "C85",
   "status": "partial",
   "theorems": [
    "Cm.C85_space_partial",
    "Cm.C85_contact_partial",
    "Cm.C85_restitution",
    "Cm.C85_groove",
    "Cm.C85_pivot_limit",
    "Cm.C85_friction_release"
   ],
   "note": "Proved for frictionless contacts, resting pin, slide, motor, gear and other single-axis joints in any number (C85_space_partial) and for a contact with friction whose accumulated friction stays within the new cone (C85_contact_partial); refuted for groove joints (C85_groove), force limited pivots (C85_pivot_limit) and contacts letting go of friction (C85_friction_release)."
  },
  {
   "property": "C86",
   "status": "proved",
   "theorems": [
    "Cm.C86_prepared",
    "Cm.C86_iteration",
    "Cm.C86_spin",
    "Cm.C86_converged",
    "Cm.C86_head_on"
   ],
   "note": ""
  },
  {
   "property": "C87",
   "status": "proved",
   "theorems": [
    "Cm.C87_inverses",
    "Cm.C87_type",
    "Cm.C87_unmoved",
    "Cm.C87_static_mass"
   ],
   "note": "For histories of meaningful calls; SetMass on a static body is the excluded case and is shown to break it (C87_static_mass)."
  },
  {
   "property": "C88",
   "status": "proved",
   "theorems": [
    "Cm.C88_rest",
    "Cm.C88_pin",
    "Cm.C88_pivot",
    "Cm.C88_groove",
    "Cm.C88_others",
    "Cm.C88_springs",
    "Cm.C88_gear",
    "Cm.C88_gear_workless"
   ],
   "note": ""
  },
  {
   "property": "C89",
   "status": "proved",
   "theorems": [
    "Cm.C89_reject",
    "Cm.C89_narrow"
   ],
   "note": "Composes the broad phase (C06, C07), the filter (C05) and the joint lists (C30) with the early tests of the narrow phase."
  },
  {
   "property": "C90",
   "status": "proved",
   "theorems": [
    "Cm.C90_solve",
    "Cm.C90_reported"
   ],
   "note": "Whole solve, any subset of links exchanged."
  },
  {
   "property": "C91",
   "status": "proved",
   "theorems": [
    "Cm.C91_solve",
    "Cm.C91_steps",
    "Cm.C91_frames",
    "Cm.C91_gear"
   ],
   "note": "Any number of steps; moving frames when undamped. The gear of ratio other than 1 is the exception, shown."
  },
  {
   "property": "C92",
   "status": "proved",
   "theorems": [
    "Cm.C92_particle",
    "Cm.C92_uniform"
   ],
   "note": "Collisions of each step are inputs."
  },
  {
   "property": "C93",
   "status": "partial",
   "theorems": [
    "Cm.C93_found_partial",
    "Cm.C93_nearest_partial",
    "Cm.C93_line_start",
    "Cm.C93_corner"
   ],
   "note": "Complete for starts not on a grid line heading down; the failing cases are shown (C93_line_start, C93_corner). The callback is a function of the shape."
  },
  {
   "property": "C94",
   "status": "proved",
   "theorems": [
    "Cm.C94_bins_same_answers",
    "Cm.C94_bins_apart",
    "Cm.C94_bins_refine_set"
   ],
   "note": "Refinement of the pointer-level set to the list model of C01, with the disjointness invariant."
  },
  {
   "property": "C95",
   "status": "proved",
   "theorems": [
    "Cm.C95_segment",
    "Cm.C95_segment_side",
    "Cm.C95_box",
    "Cm.C95_poly",
    "Cm.C95_rounding"
   ],
   "note": "Segments, boxes and polygons as made and cached."
  },
  {
   "property": "C96",
   "status": "proved",
   "theorems": [
    "Cm.C96_composite",
    "Cm.C96_informed",
    "Cm.C96_density",
    "Cm.C96_verts_stale",
    "Cm.C96_last_removed"
   ],
   "note": "Histories of shape changes; the stale SetVerts and the lost explicit mass are stated as witnesses."
  },
  {
   "property": "C97",
   "status": "proved",
   "theorems": [
    "Cm.C97_memory_refines",
    "Cm.C97_pointers",
    "Cm.C97_climb",
    "Cm.C97_query",
    "Cm.C97_same_calls",
    "Cm.C97_twice"
   ],
   "note": "Insertion twice of the same shape is shown to break it; the space refuses it (C23)."
  },
  {
   "property": "C98",
   "status": "proved",
   "theorems": [
    "Cm.C98_no_panic",
    "Cm.C98_contacts"
   ],
   "note": "Composition of C06/C07/C30 (through C89), C43, C44 and C95. Pairs of two segments and polygons go through GJK and are not covered (see C45)."
  },
  {
   "property": "C99",
   "status": "proved",
   "theorems": [
    "Cm.C99_solve",
    "Cm.C99_steps",
    "Cm.C99_units"
   ],
   "note": "The conversion of each number is written out per dimension (Spec.Scales); over the reals C99_units shows every choice of positive units and either hand satisfies the hypotheses on the mathematical functions. Finite masses are assumed not to become exactly the code's infinity (MaxFloat64) in the new units."
  }
 ]
}
