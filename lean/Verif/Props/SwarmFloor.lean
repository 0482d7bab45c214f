import Verif.Props.Swarm
/-! # C151: balls on a ground of rods -/
set_option linter.unusedSectionVars false
set_option linter.unusedSimpArgs false
set_option linter.unusedVariables false

namespace Cm
open Spec Descent BBTree
variable {K : Type} [Field K] [LinearOrder K] [IsStrictOrderedRing K]

namespace Spec
/-- The point of a rod at `t`, where its body is. -/
def rodPoint (τ : Transform K) (a b : V2 K) (t : K) : V2 K := τ.apply ⟨a.x + (b.x - a.x) * t, a.y + (b.y - a.y) * t⟩

/-- Balls about the centres of gravity of bodies that can be pushed, and a ground `g` that cannot be pushed and is made of rods that have the point `o` in common.
When a step has moved them, no two balls have the same centre, and no centre is on a rod. -/
structure Grounded (M : Mth K) (sc : Scene K) (fig : Nat → Figure K) (r : Roster) (inp : Tick K) (g : Nat) (o : V2 K) (w : World K) : Prop where
  shape : ∀ i, r i ≠ none →
    ((w.bodies (sc.figs i).body).mInv ≠ 0 ∧ ∃ ρ, fig i = .ball ρ (w.bodies (sc.figs i).body).cog ∧ Centred (w.bodies (sc.figs i).body)) ∨
    ((sc.figs i).body = g ∧ ∃ a b ρ t, fig i = .rod a b ρ ∧ 0 ≤ t ∧ t ≤ 1 ∧ rodPoint (movedBodies M inp w g).tr a b t = o)
  fixed : (w.bodies g).mInv = 0
  apart : ∀ i j, r i ≠ none → r j ≠ none → (sc.figs i).body ≠ g → (sc.figs j).body ≠ g → (sc.figs i).body ≠ (sc.figs j).body →
    (movedBodies M inp w (sc.figs i).body).p ≠ (movedBodies M inp w (sc.figs j).body).p
  off : ∀ i j, r i ≠ none → r j ≠ none → (sc.figs i).body ≠ g → ∀ a b ρ, fig j = .rod a b ρ → ∀ t, 0 ≤ t → t ≤ 1 →
    rodPoint (movedBodies M inp w g).tr a b t ≠ (movedBodies M inp w (sc.figs i).body).p
end Spec

/-- Seen from anywhere, the whole of a rod lies in the direction of its nearest point. -/
theorem nearest_ahead (A B c : V2 K) (s : K) (s0 : 0 ≤ s) (s1 : s ≤ 1) :
    let X := A.add ((B.sub A).scale (clamp01 ((B.sub A).dot (c.sub A) / (B.sub A).lengthSq)))
    let o := A.add ((B.sub A).scale s)
    (X.sub c).lengthSq ≤ (X.sub c).dot (o.sub c) := by
  obtain ⟨Ax, Ay⟩ := A
  obtain ⟨Bx, By⟩ := B
  obtain ⟨cx, cy⟩ := c
  simp only [V2.add, V2.sub, V2.scale, V2.dot, V2.lengthSq]
  generalize hDx : Bx - Ax = Dx
  generalize hDy : By - Ay = Dy
  have key : 0 ≤ (s - clamp01 ((Dx * (cx - Ax) + Dy * (cy - Ay)) / (Dx * Dx + Dy * Dy))) *
      ((Dx * Dx + Dy * Dy) * clamp01 ((Dx * (cx - Ax) + Dy * (cy - Ay)) / (Dx * Dx + Dy * Dy)) - (Dx * (cx - Ax) + Dy * (cy - Ay))) := by
    have hL : 0 ≤ Dx * Dx + Dy * Dy := add_nonneg (mul_self_nonneg _) (mul_self_nonneg _)
    rcases hL.eq_or_lt with h | h
    · have hx : Dx = 0 := by nlinarith [mul_self_nonneg Dx, mul_self_nonneg Dy]
      have hy : Dy = 0 := by nlinarith [mul_self_nonneg Dx, mul_self_nonneg Dy]
      simp [hx, hy]
    · generalize hq : (Dx * (cx - Ax) + Dy * (cy - Ay)) / (Dx * Dx + Dy * Dy) = q
      have e : Dx * (cx - Ax) + Dy * (cy - Ay) = (Dx * Dx + Dy * Dy) * q := by rw [← hq, mul_div_cancel₀ _ h.ne']
      rw [e, ← mul_sub, mul_left_comm]
      refine mul_nonneg hL ?_
      unfold clamp01
      rcases le_total q 0 with h1 | h1
      · rw [min_eq_left (h1.trans zero_le_one), max_eq_left h1]
        exact mul_nonneg (by linarith) (by linarith)
      · rcases le_total q 1 with h2 | h2
        · rw [min_eq_left h2, max_eq_right h1]; simp
        · rw [min_eq_right h2, max_eq_right zero_le_one]
          exact mul_nonneg_of_nonpos_of_nonpos (by linarith) (by linarith)
  generalize clamp01 ((Dx * (cx - Ax) + Dy * (cy - Ay)) / (Dx * Dx + Dy * Dy)) = t at key ⊢
  nlinarith [key]

/-- A ball that meets a rod: the normal points from the ball to the side of the rod's points. -/
theorem rod_opens {M : Mth K} (hM : M.Lawful) {cog x a b o : V2 K} {ρ r s : K} {τ : Transform K} {sw : Bool} {id : Nat} {info : Info K} (gi : 0 ≤ ρ) (gj : 0 ≤ r ∧ a ≠ b) (ht : Rigid τ)
    (h : info = circleToSegment M ⟨cog, x, ρ⟩ ((Segment.new M a b r).cache τ).1 ⟨τ.a, τ.b⟩ ⟨sw, id, V2.zero, []⟩) (hne : info.contacts ≠ [])
    (s0 : 0 ≤ s) (s1 : s ≤ 1) (ho : rodPoint τ a b s = o) (hoff : ∀ t, 0 ≤ t → t ≤ 1 → rodPoint τ a b t ≠ x) :
    info.swapped = sw ∧ info.n.x ^ 2 + info.n.y ^ 2 = 1 ∧ 0 < info.n.dot (o.sub x) := by
  have hz := (made_segment_tn hM gj.2 ht (r := r))
  have line : ∀ t, rodPoint τ a b t = (τ.apply a).add (((τ.apply b).sub (τ.apply a)).scale t) := by
    intro t
    simp only [rodPoint, Transform.apply, V2.add, V2.sub, V2.scale]
    apply V2.ext <;> dsimp only <;> ring
  have ht01 : ∀ q : K, 0 ≤ clamp01 q ∧ clamp01 q ≤ 1 := by
    intro q; unfold clamp01
    exact ⟨le_max_left _ _, max_le zero_le_one (min_le_right _ _)⟩
  have near := nearest_ahead (τ.apply a) (τ.apply b) x s s0 s1
  dsimp only at near
  rw [← line s, ho] at near
  have off := hoff _ (ht01 (((τ.apply b).sub (τ.apply a)).dot (x.sub (τ.apply a)) / ((τ.apply b).sub (τ.apply a)).lengthSq)).1 (ht01 _).2
  rw [line] at off
  subst h
  have ea : ((Segment.new M a b r).cache τ).1.ta = τ.apply a := rfl
  have eb : ((Segment.new M a b r).cache τ).1.tb = τ.apply b := rfl
  have er : ((Segment.new M a b r).cache τ).1.radius = r := rfl
  generalize ((Segment.new M a b r).cache τ).1 = sg at *
  unfold circleToSegment at hne ⊢
  dsimp only at hne ⊢
  rw [ea, eb, er] at hne ⊢
  generalize (τ.apply a).add (((τ.apply b).sub (τ.apply a)).scale (clamp01 (((τ.apply b).sub (τ.apply a)).dot (x.sub (τ.apply a)) / ((τ.apply b).sub (τ.apply a)).lengthSq))) = X at *
  split at hne
  · rename_i hlt
    rw [if_pos hlt]
    dsimp only
    obtain ⟨hn1, e, e0, -, e1, e2⟩ := direction hM (X.sub x) sg.tn hz (add_nonneg gi gj.1) hlt
    generalize (if M.sqrt (X.sub x).lengthSq ≠ 0 then (X.sub x).scale (1 / M.sqrt (X.sub x).lengthSq) else sg.tn) = n at *
    have epos : 0 < e := by
      refine lt_of_le_of_ne e0 fun h => off ?_
      rw [← h, zero_mul] at e1 e2
      simp only [V2.sub] at e1 e2
      exact V2.ext (by linarith) (by linarith)
    refine ⟨rfl, hn1, ?_⟩
    have hl : (X.sub x).lengthSq = e * e := by
      have : (X.sub x).lengthSq = e * e * (n.x ^ 2 + n.y ^ 2) := by simp only [V2.lengthSq, V2.dot]; rw [e1, e2]; ring
      rw [this, hn1, mul_one]
    have hd : (X.sub x).dot (o.sub x) = e * n.dot (o.sub x) := by simp only [V2.dot]; rw [e1, e2]; ring
    rw [hl, hd] at near
    exact lt_of_lt_of_le epos (le_of_mul_le_mul_left near epos)
  · exact absurd rfl hne

/-- Two balls that meet: the normal points from the one centre to the other. -/
theorem ball_opens {M : Mth K} (hM : M.Lawful) {c1 c2 x y : V2 K} {ρ ρ' : K} {id : Nat} {info : Info K} (gi : 0 ≤ ρ) (gj : 0 ≤ ρ')
    (h : info = circleToCircle M ⟨c1, x, ρ⟩ ⟨c2, y, ρ'⟩ ⟨false, id, V2.zero, []⟩) (hne : info.contacts ≠ []) (hap : x ≠ y) :
    info.swapped = false ∧ info.n.x ^ 2 + info.n.y ^ 2 = 1 ∧ 0 < info.n.dot (y.sub x) := by
  subst h
  unfold circleToCircle at hne ⊢
  dsimp only at hne ⊢
  split at hne
  · rename_i hlt
    rw [if_pos hlt]
    dsimp only
    obtain ⟨hn1, e, e0, -, e1, e2⟩ := direction hM (y.sub x) ⟨1, 0⟩ (by norm_num) (add_nonneg gi gj) hlt
    generalize (if M.sqrt (y.sub x).lengthSq ≠ 0 then (y.sub x).scale (1 / M.sqrt (y.sub x).lengthSq) else (⟨1, 0⟩ : V2 K)) = n at *
    have epos : 0 < e := by
      refine lt_of_le_of_ne e0 fun h => hap ?_
      rw [← h, zero_mul] at e1 e2
      simp only [V2.sub] at e1 e2
      exact V2.ext (by linarith) (by linarith)
    refine ⟨rfl, hn1, ?_⟩
    have : n.dot (y.sub x) = e * (n.x ^ 2 + n.y ^ 2) := by simp only [V2.dot]; rw [e1, e2]; ring
    rw [this, hn1, mul_one]
    exact epos
  · exact absurd rfl hne

/-- What the surfaces of two shapes make of their arbiter. -/
theorem updated_surface (sc : Scene K) (inp : Tick K) (w : World K) (i j : Nat) (info : Info K) (hn : info.n.x ^ 2 + info.n.y ^ 2 = 1) :
    (w.updated sc inp (i, j) info).normal = info.n ∧ ((∀ i, (sc.figs i).surface.friction = 0) → (w.updated sc inp (i, j) info).u = 0) ∧
      (w.updated sc inp (i, j) info).surfaceVr.dot (w.updated sc inp (i, j) info).normal = 0 := by
  have h : (w.updated sc inp (i, j) info).normal = info.n ∧ ((∀ i, (sc.figs i).surface.friction = 0) → (w.updated sc inp (i, j) info).u = 0) ∧
      (w.updated sc inp (i, j) info).surfaceVr = (((sc.figs j).surface.velocity.sub (sc.figs i).surface.velocity).sub
        (info.n.scale (((sc.figs j).surface.velocity.sub (sc.figs i).surface.velocity).dot info.n))) := by
    unfold World.updated
    dsimp only
    split_ifs <;> simp only [Arbiter.update] <;> exact ⟨trivial, fun h => by rw [h i, zero_mul], trivial⟩
  refine ⟨h.1, h.2.1, ?_⟩
  rw [h.2.2, h.1]
  simp only [V2.dot, V2.sub, V2.scale]
  linear_combination (-(((sc.figs j).surface.velocity.x - (sc.figs i).surface.velocity.x) * info.n.x + ((sc.figs j).surface.velocity.y - (sc.figs i).surface.velocity.y) * info.n.y)) * hn

/-- The collisions of balls with each other and with the ground are those of a heap. -/
theorem grounded_opens {M : Mth K} (hM : M.Lawful) {sc : Scene K} {fig : Nat → Figure K} (hm : Made M sc fig) (hper : 1 ≤ sc.persistence) {r : Roster} {w : World K}
    (hu : Upright sc r w) (hf : Filed w) {inp : Tick K} (ho : WOk sc r (.step inp)) {g : Nat} {o : V2 K} (hs : Grounded M sc fig r inp g o w) (hmass : ∀ k, 0 ≤ (w.bodies k).mInv) :
    ∀ l ∈ collisions M sc inp w, Pushable (movedBodies M inp w) l ∧ Opens (movedBodies M inp w) o l ∧ ((∀ i, (sc.figs i).surface.friction = 0) → l.it.u = 0) ∧
      l.it.surfaceVr.dot l.it.normal = 0 := by
  have hcol : collisions M sc inp w = (w.found M sc inp).active.map fun p => ⟨(sc.figs p.1).body, (sc.figs p.2).body, heldArb ((w.found M sc inp).swept sc).cache p.1 p.2⟩ := rfl
  have hc := calls_apart hM hm hu inp ho
  obtain ⟨hbu, hcur⟩ := begun_upright hM hm hu inp ho
  have hpl : ∀ k, (movedBodies M inp w k) = (w.begun M sc inp).bodies k := fun k => rfl
  -- a ball and a rod
  have meets : ∀ i j info, r i ≠ none → r j ≠ none → (w.bodies (sc.figs i).body).mInv ≠ 0 → ∀ ρ, fig i = .ball ρ (w.bodies (sc.figs i).body).cog → Centred (w.bodies (sc.figs i).body) →
      (sc.figs j).body = g → ∀ a b ρ' t, fig j = .rod a b ρ' → 0 ≤ t → t ≤ 1 → rodPoint (movedBodies M inp w g).tr a b t = o → info.contacts ≠ [] → ∀ id sw,
      info = circleToSegment M ⟨(w.bodies (sc.figs i).body).cog, ((w.begun M sc inp).bodies (sc.figs i).body).p, ρ⟩ ((Segment.new M a b ρ').cache ((w.begun M sc inp).bodies (sc.figs j).body).tr).1
        ⟨((w.begun M sc inp).bodies (sc.figs j).body).tr.a, ((w.begun M sc inp).bodies (sc.figs j).body).tr.b⟩ ⟨sw, id, V2.zero, []⟩ →
      info.swapped = sw ∧ ∀ arb, arb = (w.begun M sc inp).updated sc inp (i, j) info →
        let l : Link (Arbiter K) := ⟨(sc.figs i).body, (sc.figs j).body, arb⟩
        Pushable (movedBodies M inp w) l ∧ Opens (movedBodies M inp w) o l ∧ ((∀ i, (sc.figs i).surface.friction = 0) → l.it.u = 0) ∧ l.it.surfaceVr.dot l.it.normal = 0 := by
    intro i j info ri rj mi ρ fi pi gj a b ρ' t fj t0 t1 hto hne id sw hin
    have hig : (sc.figs i).body ≠ g := fun h => mi (by rw [h]; exact hs.fixed)
    have gi := (hm i).1
    have gr := (hm j).1
    rw [fi] at gi
    rw [fj] at gr
    have hoff := hs.off i j ri rj hig a b ρ' fj
    rw [gj] at hin
    obtain ⟨k1, k2, k3⟩ := rod_opens hM gi gr (hbu.rigid g) hin hne t0 t1 hto hoff
    refine ⟨k1, ?_⟩
    rintro arb rfl
    obtain ⟨u1, u2, u3⟩ := updated_surface sc inp (w.begun M sc inp) i j info k2
    have m1 := (movedBodies_mass M inp w (sc.figs i).body).1
    have m2 := (movedBodies_mass M inp w (sc.figs j).body).1
    rw [gj, hs.fixed] at m2
    refine ⟨⟨by rw [gj]; exact hig, by dsimp only; rw [u1]; exact k2, ?_⟩, .inr (.inr ⟨?_, ?_, ?_⟩), u2, u3⟩
    · dsimp only
      rw [gj, m1, m2, add_zero]
      exact lt_of_le_of_ne (hmass _) (Ne.symm mi)
    · dsimp only; rw [m1]; exact mi
    · dsimp only; rw [gj]; exact m2
    · dsimp only; rw [u1]; exact k3
  intro l hl
  rw [hcol] at hl
  obtain ⟨ab, hab, rfl⟩ := List.mem_map.1 hl
  obtain ⟨info, ⟨i, j⟩, hp, hhit, hpair, harb⟩ := found_call M sc hper inp w hf.one hc ab hab
  obtain ⟨ri, rj⟩ := calls_present hM hm hu inp ho _ hp
  obtain ⟨hne, hbod, id, hco⟩ := hit_collide hbu.proper hhit
  dsimp only at ri rj hbod hco
  rcases hs.shape i ri with ⟨mi, ρ, fi, pi⟩ | ⟨gi, a, b, ρ, t, fi, t0, t1, hto⟩ <;> rcases hs.shape j rj with ⟨mj, ρ', fj, pj⟩ | ⟨gj, a', b', ρ', t', fj, t0', t1', hto'⟩
  · have hig : (sc.figs i).body ≠ g := fun h => mi (by rw [h]; exact hs.fixed)
    have hjg : (sc.figs j).body ≠ g := fun h => mj (by rw [h]; exact hs.fixed)
    have hap := hs.apart i j ri rj hig hjg hbod
    have si := begun_placed M sc inp w _ pi
    have sj := begun_placed M sc inp w _ pj
    rw [hcur _ ri, hcur _ rj, (hm _).2, (hm _).2, fi, fj, ball_ball, si, sj] at hco
    obtain ⟨k1, k2, k3⟩ := ball_opens hM (by have := (hm i).1; rw [fi] at this; exact this) (by have := (hm j).1; rw [fj] at this; exact this) (Option.some.inj hco).symm hne hap
    have hab' : ab = (i, j) := by rw [hpair, Info.pair, k1]; rfl
    subst hab'
    obtain ⟨u1, u2, u3⟩ := updated_surface sc inp (w.begun M sc inp) i j info k2
    have m1 := (movedBodies_mass M inp w (sc.figs i).body).1
    have m2 := (movedBodies_mass M inp w (sc.figs j).body).1
    rw [harb]
    refine ⟨⟨hbod, by dsimp only; rw [u1]; exact k2, ?_⟩, .inl ⟨by dsimp only; rw [m1]; exact mi, by dsimp only; rw [m2]; exact mj, by dsimp only; rw [u1]; exact k3⟩, u2, u3⟩
    dsimp only
    rw [m1, m2]
    exact add_pos_of_pos_of_nonneg (lt_of_le_of_ne (hmass _) (Ne.symm mi)) (hmass _)
  · have si := begun_placed M sc inp w _ pi
    rw [hcur _ ri, hcur _ rj, (hm _).2, (hm _).2, fi, fj, ball_rod, si] at hco
    obtain ⟨k1, k2⟩ := meets i j info ri rj mi ρ fi pi gj a' b' ρ' t' fj t0' t1' hto' hne id false (Option.some.inj hco).symm
    have hab' : ab = (i, j) := by rw [hpair, Info.pair, k1]; rfl
    subst hab'
    exact k2 _ harb
  · have sj := begun_placed M sc inp w _ pj
    rw [hcur _ ri, hcur _ rj, (hm _).2, (hm _).2, fi, fj, rod_ball, sj] at hco
    obtain ⟨k1, k2⟩ := meets j i info rj ri mj ρ' fj pj gi a b ρ t fi t0 t1 hto hne id true (Option.some.inj hco).symm
    have hab' : ab = (j, i) := by rw [hpair, Info.pair, k1]; rfl
    subst hab'
    exact k2 _ harb
  · exact absurd (gi.trans gj.symm) hbod

/-- **C151**. Balls on a ground of rods that have a point in common, such as a floor, a slope or a corner: after any history, with any joints and friction, the corrections of
overlaps in a step settle as the number of its iterations grows, and they correct every overlap at least as fast as it asks for. -/
theorem C151_ground [Archimedean K] {M : Mth K} (hM : M.Lawful) {sc : Scene K} {fig : Nat → Figure K} (hm : Made M sc fig) (hper : 1 ≤ sc.persistence) (bodies : Nat → Body K)
    (shapes : Nat → CShape K) (hb : ∀ k, Rigid (bodies k).tr) (hs : ∀ i, (shapes i).bb.L ≤ (shapes i).bb.R ∧ (shapes i).bb.B ≤ (shapes i).bb.T)
    (ops : List (WorldOp K)) (inp : Tick K) (hl : WLegal sc (fun _ => none) (ops ++ [.step inp])) (h0 : inp.dt ≠ 0) :
    ∃ w, (World.init bodies shapes).run M sc ops = some w ∧ ((∀ k, 0 ≤ (w.bodies k).mInv ∧ 0 ≤ (w.bodies k).iInv) →
      ∀ g o, Grounded M sc fig (rosterAfter (fun _ => none) ops) inp g o w →
      ∃ u, Parts .corrections (prepared M sc.par.inf sc.par.slop sc.par.cbias sc.par.damping sc.par.gravity inp.dyn w.prevDT inp.dt
          ⟨movedBodies M inp w, collisions M sc inp w, w.joints⟩) u ∧
        ∀ ε > 0, ∃ n0, ∀ n ≥ n0, ∀ k, FlowNear ε (Channel.corrections.flow ((w.step M (iterating sc n) inp).bodies k)) (u k)) := by
  obtain ⟨hl1, hl2, -⟩ := (legal_append sc ops _ _).1 hl
  obtain ⟨w, e, hu, hf⟩ := run_filed hM hm hper ops _ _ (init_upright sc bodies shapes hb hs) ⟨List.Pairwise.nil, List.Pairwise.nil, (fun p hp => by cases hp)⟩ hl1
  refine ⟨w, e, fun hmass g o hsw => ?_⟩
  have key := grounded_opens hM hm hper hu hf hl2 hsw fun k => (hmass k).1
  exact C151_step M sc inp w h0 hmass (fun l hl => (key l hl).1) o fun l hl => (key l hl).2.1

/-- Without friction and joints the velocities settle too: no ball goes on moving into another or into the ground. -/
theorem C151_ground_speeds [Archimedean K] {M : Mth K} (hM : M.Lawful) {sc : Scene K} {fig : Nat → Figure K} (hm : Made M sc fig) (hper : 1 ≤ sc.persistence)
    (hfr : ∀ i, (sc.figs i).surface.friction = 0) (bodies : Nat → Body K)
    (shapes : Nat → CShape K) (hb : ∀ k, Rigid (bodies k).tr) (hs : ∀ i, (shapes i).bb.L ≤ (shapes i).bb.R ∧ (shapes i).bb.B ≤ (shapes i).bb.T)
    (ops : List (WorldOp K)) (inp : Tick K) (hl : WLegal sc (fun _ => none) (ops ++ [.step inp])) (h0 : inp.dt ≠ 0) :
    ∃ w, (World.init bodies shapes).run M sc ops = some w ∧ ((∀ k, 0 ≤ (w.bodies k).mInv ∧ 0 ≤ (w.bodies k).iInv) → w.joints = [] →
      ∀ g o, Grounded M sc fig (rosterAfter (fun _ => none) ops) inp g o w →
      ∃ u, Parts .impacts (prepared M sc.par.inf sc.par.slop sc.par.cbias sc.par.damping sc.par.gravity inp.dyn w.prevDT inp.dt
          ⟨movedBodies M inp w, collisions M sc inp w, w.joints⟩) u ∧
        ∀ ε > 0, ∃ n0, ∀ n ≥ n0, ∀ k, FlowNear ε (Channel.impacts.flow ((w.step M (iterating sc n) inp).bodies k)) (u k)) := by
  obtain ⟨hl1, hl2, -⟩ := (legal_append sc ops _ _).1 hl
  obtain ⟨w, e, hu, hf⟩ := run_filed hM hm hper ops _ _ (init_upright sc bodies shapes hb hs) ⟨List.Pairwise.nil, List.Pairwise.nil, (fun p hp => by cases hp)⟩ hl1
  refine ⟨w, e, fun hmass hj g o hsw => ?_⟩
  have key := grounded_opens hM hm hper hu hf hl2 hsw fun k => (hmass k).1
  have push := (C116_cone M sc (fun i => (hfr i).ge) bodies shapes ops w e).2 inp
  obtain ⟨u, hu, h⟩ := C149_speeds M sc.par.inf sc.par.slop sc.par.cbias sc.par.damping sc.par.gravity inp.dyn w.prevDT inp.dt
    ⟨movedBodies M inp w, collisions M sc inp w, w.joints⟩ (fun k => by
      show 0 ≤ (movedBodies M inp w k).mInv ∧ 0 ≤ (movedBodies M inp w k).iInv
      rw [(movedBodies_mass M inp w k).1, (movedBodies_mass M inp w k).2]
      exact hmass k) (fun l hl => by
      obtain ⟨k1, -, k3, k4⟩ := key l hl
      refine ⟨k1, ⟨k3 hfr, k4, fun c hc => ?_⟩, fun c hc => (push l hl c hc).1⟩
      have := (push l hl c hc).2
      rw [k3 hfr, zero_mul, fabs_eq] at this
      exact abs_nonpos_iff.1 this) hj o fun l hl => (key l hl).2.1
  refine ⟨u, hu, fun ε hε => ?_⟩
  obtain ⟨n0, hn⟩ := h ε hε
  refine ⟨n0, fun n hn0 k => ?_⟩
  rw [step_iterating M sc inp w h0]
  exact hn n hn0 k

/-! ## Examples -/

/-- The hypotheses of `C151_ground` and `C151_ground_speeds`: a ball is thrown at a floor, and hits it. -/
example (shapes : Nat → CShape ℝ) (hs : ∀ i, (shapes i).bb.L ≤ (shapes i).bb.R ∧ (shapes i).bb.B ≤ (shapes i).bb.T) (t : Tick ℝ)
    (ht : t = ⟨1/60, [0], [0], fun _ _ => true, fun _ _ => true⟩) :
    Made realMth (exFloating true) (exThrownFig true) ∧ (∀ k, Rigid (exThrownBodies true k).tr) ∧ WLegal (exFloating true) (fun _ => none) (twoOps false ++ [.step t]) ∧
    (∀ i, ((exFloating true).figs i).surface.friction = 0) ∧
    ∃ w, (World.init (exThrownBodies true) shapes).run realMth (exFloating true) (twoOps false) = some w ∧ (w.step realMth (exFloating true) t).active ≠ [] ∧
      (∀ k, 0 ≤ (w.bodies k).mInv ∧ 0 ≤ (w.bodies k).iInv) ∧ w.joints = [] ∧
      Grounded realMth (exFloating true) (exThrownFig true) (rosterAfter (fun _ => none) (twoOps (K := ℝ) false)) t 1 ⟨0, -1⟩ w := by
  obtain ⟨h1, h2, h3, w, e, w1, w2, w3, p, p1, -⟩ := exFloating_meet true shapes hs t (by rw [ht]; rfl)
  have two : ∀ i, rosterAfter (fun _ => none) (twoOps (K := ℝ) false) i ≠ none → i = 0 ∨ i = 1 := by
    intro i hi
    rw [two_roster] at hi
    by_contra h
    push Not at h
    exact hi (by rw [if_neg h.2, if_neg h.1])
  have b1 : (movedBodies realMth t w 1).tr = Transform.identity := by
    rw [ht]; simp [movedBodies, w1, exThrownBodies, Body.blank]
  have b0 : (movedBodies realMth t w 0).p = ⟨1/20, -1/15⟩ := by
    rw [ht]; norm_num [movedBodies, w1, exThrownBodies, Body.blank, V2.zero, V2.add, V2.scale, Body.updatePosition, Body.setTransform]
  refine ⟨h1, h2, h3, fun i => by simp [exFloating], w, e, by rw [p1]; simp, ?_, w3, ⟨fun i hi => ?_, ?_, fun i j hi hj h4 h5 hne => ?_, fun i j hi hj hg a b ρ hf s s0 s1 => ?_⟩⟩
  · intro k; rw [w1]; unfold exThrownBodies; split_ifs <;> norm_num [Body.blank]
  · rcases two i hi with rfl | rfl
    · refine .inl ⟨by rw [w1]; norm_num [exFloating, exThrownBodies], 1, ?_⟩
      rw [w1]
      norm_num [exThrownFig, exFloating, exThrownBodies, Body.blank, V2.zero, Centred, Transform.apply, Transform.identity]
    · refine .inr ⟨rfl, ⟨-9, -1⟩, ⟨9, -1⟩, 1/4, 1/2, by simp [exThrownFig], by norm_num, by norm_num, ?_⟩
      rw [b1]
      norm_num [rodPoint, Transform.apply, Transform.identity]
  · rw [w1]; norm_num [exThrownBodies, Body.blank]
  · rcases two i hi with rfl | rfl <;> rcases two j hj with rfl | rfl <;> first
      | exact absurd rfl hne
      | exact absurd rfl h4
      | exact absurd rfl h5
  · rcases two i hi with rfl | rfl
    · rcases two j hj with rfl | rfl
      · simp [exThrownFig] at hf
      · simp only [exThrownFig, and_self, if_true, Figure.rod.injEq] at hf
        obtain ⟨rfl, rfl, -⟩ := hf
        rw [b1]
        show _ ≠ (movedBodies realMth t w 0).p
        rw [b0]
        norm_num [rodPoint, Transform.apply, Transform.identity]
    · exact absurd rfl hg

end Cm
