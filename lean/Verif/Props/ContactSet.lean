import Verif.Model.ContactSet
import Verif.Props.Contact
import Verif.Props.Reported
/-! # C59, C64, C73: contact point sets, warm starting and combined surfaces -/
set_option linter.unusedSectionVars false
set_option linter.unusedSimpArgs false
set_option linter.unusedVariables false
set_option linter.unnecessarySeqFocus false

namespace Cm
open Spec
section Exact
variable {K : Type} [Field K] [LinearOrder K] [IsStrictOrderedRing K]

/-! ## C59 -/

/-- The collision has not ended: the states in which handlers other than Separate see an arbiter. -/
def Spec.Live (arb : Arbiter K) : Prop := arb.state = .first ∨ arb.state = .normal ∨ arb.state = .ignore

theorem live_count {arb : Arbiter K} (h : Live arb) : arb.count = arb.contacts.length := by
  unfold Arbiter.count
  rcases h with h | h | h <;> rw [h]

/-- **C59** What is read: as many points as contacts, in order; each gives the world position of the contact on the
handler's first and second body, and the distance between them along the normal the handler sees. `ra c` and `rb c`
are the offsets of the contact from the handler's first and second body, `xa` and `xb` these bodies' positions. -/
theorem C59_read (arb : Arbiter K) (h : Live arb) (pa pb : V2 K) :
    let s := arb.contactPointSet pa pb
    let xa := if arb.swapped then pb else pa
    let xb := if arb.swapped then pa else pb
    let ra := fun c : Contact K => if arb.swapped then c.r2 else c.r1
    let rb := fun c : Contact K => if arb.swapped then c.r1 else c.r2
    s.points.length = arb.contacts.length ∧
    s.normal = (if arb.swapped then ⟨-arb.normal.x, -arb.normal.y⟩ else arb.normal) ∧
    ∀ (i : Nat) (hi : i < s.points.length) (hi' : i < arb.contacts.length),
      s.points[i].pointA = ⟨xa.x + (ra arb.contacts[i]).x, xa.y + (ra arb.contacts[i]).y⟩ ∧
      s.points[i].pointB = ⟨xb.x + (rb arb.contacts[i]).x, xb.y + (rb arb.contacts[i]).y⟩ ∧
      s.points[i].distance = (s.points[i].pointB.x - s.points[i].pointA.x) * s.normal.x
        + (s.points[i].pointB.y - s.points[i].pointA.y) * s.normal.y := by
  intro s xa xb ra rb
  have hc := live_count h
  have hs : s.points = arb.contacts.map fun con =>
      { pointA := if arb.swapped then pb.add con.r2 else pa.add con.r1
        pointB := if arb.swapped then pa.add con.r1 else pb.add con.r2
        distance := ((pb.add con.r2).sub (pa.add con.r1)).dot arb.normal } := by
    simp only [s, Arbiter.contactPointSet, hc, List.take_length]
  refine ⟨by rw [hs, List.length_map], rfl, ?_⟩
  intro i hi hi'
  have hsi := List.getElem_of_eq hs hi
  rw [List.getElem_map] at hsi
  rw [hsi]
  have hsn : s.normal = if arb.swapped then arb.normal.neg else arb.normal := rfl
  rw [hsn]
  by_cases hsw : arb.swapped = true
  swap
  · simp only [xa, xb, ra, rb, hsw, V2.add, V2.sub, V2.dot, if_false, Bool.false_eq_true]
    exact ⟨trivial, trivial, trivial⟩
  · simp only [xa, xb, ra, rb, hsw, V2.add, V2.sub, V2.dot, V2.neg, if_true]
    refine ⟨trivial, trivial, ?_⟩
    ring

/-- **C59** Writing back what was read leaves the arbiter exactly as it was, swapped or not. -/
theorem C59_roundtrip (arb : Arbiter K) (h : Live arb) (pa pb : V2 K) :
    arb.setContactPointSet pa pb (arb.contactPointSet pa pb) = some arb := by
  have hc := live_count h
  unfold Arbiter.setContactPointSet Arbiter.contactPointSet
  rw [hc]
  simp only [List.take_length, List.length_map, ne_eq, not_true_eq_false, if_false]
  congr 1
  obtain ⟨e, u, sv, n, cs, st, sw⟩ := arb
  simp only [Arbiter.mk.injEq, and_true, true_and]
  refine ⟨?_, ?_⟩
  · cases sw <;> simp [V2.neg]
  · clear h hc
    induction cs with
    | nil => rfl
    | cons c cs ih =>
      rw [List.map_cons, List.zipWith_cons_cons, ih]
      congr 1
      obtain ⟨⟨x1, y1⟩, ⟨x2, y2⟩, _⟩ := c
      cases sw <;> simp [V2.add, V2.sub]

/-- **C59** Reading back what was written gives the normal and points written (the distance is computed afresh), for
any set with the right number of points; accumulated impulses and everything else stay. -/
theorem C59_write (arb arb' : Arbiter K) (h : Live arb) (pa pb : V2 K) (set : PointSet K)
    (hw : arb.setContactPointSet pa pb set = some arb') :
    (arb'.contactPointSet pa pb).normal = set.normal ∧
    (arb'.contactPointSet pa pb).points.map (fun p => (p.pointA, p.pointB)) = set.points.map (fun p => (p.pointA, p.pointB)) ∧
    arb'.contacts.map (fun c => (c.jnAcc, c.jtAcc, c.hash)) = arb.contacts.map (fun c => (c.jnAcc, c.jtAcc, c.hash)) ∧
    arb'.e = arb.e ∧ arb'.u = arb.u ∧ arb'.surfaceVr = arb.surfaceVr ∧ arb'.state = arb.state ∧ arb'.swapped = arb.swapped := by
  unfold Arbiter.setContactPointSet at hw
  split at hw
  · exact absurd hw (by simp)
  · rename_i hlen
    rw [not_not] at hlen
    have hw := Option.some.inj hw
    have hl' : Live arb' := by rw [← hw]; exact h
    have hc' := live_count hl'
    unfold Arbiter.contactPointSet
    rw [hc', ← hw]
    simp only [List.take_length]
    refine ⟨?_, ?_, ?_, trivial, trivial, trivial, trivial, trivial⟩
    · cases arb.swapped <;> simp [V2.neg]
    · clear hw hc' hl' h
      generalize arb.contacts = cs at hlen
      generalize set.points = ps at hlen
      induction cs generalizing ps with
      | nil =>
        cases ps with
        | nil => rfl
        | cons => simp at hlen
      | cons c cs ih =>
        cases ps with
        | nil => simp at hlen
        | cons p ps =>
          have := ih ps (by simpa using hlen)
          simp only [List.map_map, List.zipWith_cons_cons, List.map_cons, List.cons.injEq] at this ⊢
          refine ⟨?_, this⟩
          cases arb.swapped <;> simp [V2.add, V2.sub]
    · clear hw hc' hl' h
      generalize arb.contacts = cs at hlen
      generalize set.points = ps at hlen
      induction cs generalizing ps with
      | nil => rfl
      | cons c cs ih =>
        cases ps with
        | nil => simp at hlen
        | cons p ps =>
          have := ih ps (by simpa using hlen)
          simp only [List.zipWith_cons_cons, List.map_cons, List.cons.injEq] at this ⊢
          exact ⟨trivial, this⟩

/-- After the collision has ended, as in the Separate handler of a collision that had contacts, the set read is
empty and writing it back ends the program. -/
theorem C59_ended (arb : Arbiter K) (h : arb.state = .cached ∨ arb.state = .invalidated) (hne : arb.contacts ≠ [])
    (pa pb : V2 K) :
    (arb.contactPointSet pa pb).points = [] ∧
    arb.setContactPointSet pa pb (arb.contactPointSet pa pb) = none := by
  have hp : (arb.contactPointSet pa pb).points = [] := by
    unfold Arbiter.contactPointSet Arbiter.count
    rcases h with h | h <;> rw [h] <;> simp
  refine ⟨hp, ?_⟩
  unfold Arbiter.setContactPointSet
  rw [hp, if_pos]
  simp only [List.length_nil, ne_eq]
  exact fun e => hne (List.length_eq_zero_iff.1 e.symm)

end Exact

section Any
variable {K : Type} [Zero K] [One K] [Add K] [Sub K] [Mul K] [Div K] [Neg K] [NatCast K] [LinearOrder K]

/-! ## C64 -/

theorem copyOld_spec (old : List (Contact K)) : ∀ con : Contact K,
    (copyOld old con).hash = con.hash ∧ (copyOld old con).r1 = con.r1 ∧ (copyOld old con).r2 = con.r2 ∧
    (((∀ o ∈ old, o.hash ≠ con.hash) ∧ (copyOld old con).jnAcc = con.jnAcc ∧ (copyOld old con).jtAcc = con.jtAcc) ∨
     ∃ l o r, old = l ++ o :: r ∧ o.hash = con.hash ∧ (∀ q ∈ r, q.hash ≠ con.hash) ∧
       (copyOld old con).jnAcc = o.jnAcc ∧ (copyOld old con).jtAcc = o.jtAcc) := by
  induction old with
  | nil => intro con; exact ⟨rfl, rfl, rfl, Or.inl ⟨by simp, rfl, rfl⟩⟩
  | cons q old ih =>
    intro con
    have hstep : copyOld (q :: old) con = copyOld old
        (if con.hash = q.hash then { con with jnAcc := q.jnAcc, jtAcc := q.jtAcc } else con) := rfl
    rw [hstep]
    obtain ⟨i1, i2, i3, i4⟩ := ih (if con.hash = q.hash then { con with jnAcc := q.jnAcc, jtAcc := q.jtAcc } else con)
    by_cases hq : con.hash = q.hash
    · rw [if_pos hq] at i1 i2 i3 i4 ⊢
      refine ⟨i1, i2, i3, Or.inr ?_⟩
      rcases i4 with ⟨j1, j2, j3⟩ | ⟨l, o, r, j1, j2, j3, j4, j5⟩
      · exact ⟨[], q, old, rfl, hq.symm, j1, j2, j3⟩
      · exact ⟨q :: l, o, r, by rw [j1]; rfl, j2, j3, j4, j5⟩
    · rw [if_neg hq] at i1 i2 i3 i4 ⊢
      refine ⟨i1, i2, i3, ?_⟩
      rcases i4 with ⟨j1, j2, j3⟩ | ⟨l, o, r, j1, j2, j3, j4, j5⟩
      · left
        refine ⟨?_, j2, j3⟩
        intro o ho
        rcases List.mem_cons.1 ho with rfl | ho
        · exact fun e => hq e.symm
        · exact j1 o ho
      · exact Or.inr ⟨q :: l, o, r, by rw [j1]; rfl, j2, j3, j4, j5⟩

/-- **C64** After a refresh there is one contact per contact found, in the same order, with the same feature hash and
its points made relative to the bodies; it carries the accumulated impulses of an old contact with the same hash if
there is one (the last such), and starts from zero otherwise. -/
theorem C64_warm_start (arb : Arbiter K) (arr : List (Contact K)) (n pa pb : V2 K) (sa sb : Surface K) (sw : Bool) :
    let new := (arb.update arr n pa pb sa sb sw).contacts
    new.length = arr.length ∧
    ∀ (i : Nat) (h : i < new.length) (h' : i < arr.length),
      new[i].hash = arr[i].hash ∧
      new[i].r1 = ⟨arr[i].r1.x - pa.x, arr[i].r1.y - pa.y⟩ ∧ new[i].r2 = ⟨arr[i].r2.x - pb.x, arr[i].r2.y - pb.y⟩ ∧
      ((∀ o ∈ arb.contacts, o.hash ≠ arr[i].hash) → new[i].jnAcc = 0 ∧ new[i].jtAcc = 0) ∧
      (∀ o l r, arb.contacts = l ++ o :: r → o.hash = arr[i].hash → (∀ q ∈ r, q.hash ≠ arr[i].hash) →
        new[i].jnAcc = o.jnAcc ∧ new[i].jtAcc = o.jtAcc) := by
  intro new
  have hnew : new = arr.map (refreshContact arb.contacts pa pb) := rfl
  refine ⟨by rw [hnew, List.length_map], ?_⟩
  intro i h h'
  have e : new[i] = refreshContact arb.contacts pa pb arr[i] := by
    have := List.getElem_of_eq hnew h
    rw [List.getElem_map] at this
    exact this
  rw [e]
  obtain ⟨c1, c2, c3, c4⟩ := copyOld_spec arb.contacts
    { arr[i] with r1 := arr[i].r1.sub pa, r2 := arr[i].r2.sub pb, jnAcc := 0, jtAcc := 0 }
  refine ⟨c1, c2, c3, ?_, ?_⟩
  · intro hno
    rcases c4 with ⟨_, j2, j3⟩ | ⟨l, o, r, j1, j2, _⟩
    · exact ⟨j2, j3⟩
    · exact absurd j2 (hno o (by rw [j1]; simp))
  · intro o l r ho hh hr
    rcases c4 with ⟨j1, _⟩ | ⟨l', o', r', j1, j2, j3, j4, j5⟩
    · exact absurd hh (j1 o (by rw [ho]; simp))
    · have key : ∀ (l l' : List (Contact K)), l ++ o :: r = l' ++ o' :: r' → o = o' := by
        intro l
        induction l with
        | nil =>
          intro l' hl
          cases l' with
          | nil => simp at hl; exact hl.1
          | cons x l' =>
            simp only [List.nil_append, List.cons_append, List.cons.injEq] at hl
            exact absurd j2 (hr o' (by rw [hl.2]; simp))
        | cons y l ih =>
          intro l' hl
          cases l' with
          | nil =>
            simp only [List.nil_append, List.cons_append, List.cons.injEq] at hl
            exact absurd hh (j3 o (by rw [← hl.2]; simp))
          | cons x l' =>
            simp only [List.cons_append, List.cons.injEq] at hl
            exact ih l' hl.2
      have := key l l' (by rw [← ho, j1])
      rw [this]
      exact ⟨j4, j5⟩

/-- **C64** A pair that touches for the first time, or again after having been apart, gets no cached impulse. -/
theorem C64_first (arb : Arbiter K) (arr : List (Contact K)) (n pa pb : V2 K) (sa sb : Surface K) (sw : Bool)
    (h : arb.state = .first ∨ arb.state = .cached) (a b : Body K) (t : K) :
    (arb.update arr n pa pb sa sb sw).applyCachedImpulse a b t = (a, b) := by
  have : (arb.update arr n pa pb sa sb sw).state = .first := by
    unfold Arbiter.update
    rcases h with h | h <;> simp [h]
  unfold Arbiter.applyCachedImpulse
  rw [if_pos this]

end Any

section Exact
variable {K : Type} [Field K] [LinearOrder K] [IsStrictOrderedRing K]

/-- **C64** A persisting pair gets exactly the old impulses of the contacts that persist: a contact found with a hash
not seen before contributes nothing, and if no hash persists nothing is applied. -/
theorem C64_fresh_contacts (arb : Arbiter K) (arr : List (Contact K)) (n pa pb : V2 K) (sa sb : Surface K) (sw : Bool)
    (h : ∀ c ∈ arr, ∀ o ∈ arb.contacts, o.hash ≠ c.hash) (a b : Body K) (t : K) :
    (arb.update arr n pa pb sa sb sw).applyCachedImpulse a b t = (a, b) := by
  unfold Arbiter.applyCachedImpulse
  split
  · rfl
  · have hz : ∀ c ∈ (arb.update arr n pa pb sa sb sw).contacts, c.jnAcc = 0 ∧ c.jtAcc = 0 := by
      intro c hc
      obtain ⟨i, hi, rfl⟩ := List.getElem_of_mem hc
      have W := C64_warm_start arb arr n pa pb sa sb sw
      exact (W.2 i hi (by rw [← W.1]; exact hi)).2.2.2.1 (h _ (List.getElem_mem _))
    generalize (arb.update arr n pa pb sa sb sw).contacts = cs at hz
    generalize (arb.update arr n pa pb sa sb sw).normal = m
    induction cs generalizing a b with
    | nil => rfl
    | cons c cs ih =>
      have hc := hz c (by simp)
      have : applyImpulses a b c.r1 c.r2 ((m.rotate ⟨c.jnAcc, c.jtAcc⟩).scale t) = (a, b) := by
        rw [hc.1, hc.2]; simp [applyImpulses, V2.rotate, V2.scale]
      simp only [Arbiter.cachedLoop, this]
      exact ih a b (fun d hd => hz d (by simp [hd]))

/-! ## C73 -/

/-- **C73** The collision's restitution and friction are the products of the shapes', and its surface velocity is the
part of the second's relative to the first's that is tangential to the collision. -/
theorem C73_surface (arb : Arbiter K) (arr : List (Contact K)) (n pa pb : V2 K) (sa sb : Surface K) (sw : Bool)
    (hn : n.x ^ 2 + n.y ^ 2 = 1) :
    let r := arb.update arr n pa pb sa sb sw
    r.e = sa.elasticity * sb.elasticity ∧ r.u = sa.friction * sb.friction ∧ r.normal = n ∧
    r.surfaceVr.dot n = 0 ∧ r.surfaceVr.dot n.perp = (sb.velocity.sub sa.velocity).dot n.perp ∧
    (0 ≤ sa.friction → 0 ≤ sb.friction → 0 ≤ r.u) := by
  refine ⟨rfl, rfl, rfl, ?_, ?_, fun h1 h2 => mul_nonneg h1 h2⟩
  · simp only [Arbiter.update, V2.sub, V2.scale, V2.dot]
    linear_combination -((sb.velocity.x - sa.velocity.x) * n.x + (sb.velocity.y - sa.velocity.y) * n.y) * hn
  · simp only [Arbiter.update, V2.sub, V2.scale, V2.dot, V2.perp]
    ring

/-! ## C75 -/

theorem contactSum_dot (n : V2 K) (cs : List (Contact K)) (h : ∀ c ∈ cs, 0 ≤ c.jnAcc) :
    0 ≤ (contactSum n cs).dot n := by
  induction cs with
  | nil => simp [contactSum, V2.zero, V2.dot]
  | cons c cs ih =>
    have h1 := ih (fun d hd => h d (by simp [hd]))
    have h2 := h c (by simp)
    have e : (contactSum n (c :: cs)).dot n = c.jnAcc * (n.x ^ 2 + n.y ^ 2) + (contactSum n cs).dot n := by
      simp only [contactSum, V2.dot, V2.add, V2.rotate]; ring
    rw [e]
    have := mul_nonneg h2 (add_nonneg (sq_nonneg n.x) (sq_nonneg n.y))
    linarith

/-- **C75** Over a whole step (steady time step) with at least one iteration, a collision never pulls its bodies
together: the momentum it gives the second body has no component against the normal, if it is a persisting collision or
one whose impulses start at zero. -/
theorem C75_push_partial (arb : Arbiter K) (hu : 0 ≤ arb.u) (warm : Body K × Body K) (bodies : Nat → Body K × Body K)
    (hst : arb.state = .normal ∨ (arb.state = .first ∧ ∀ c ∈ arb.contacts, c.jnAcc = 0 ∧ c.jtAcc = 0))
    (hw : FiniteMass warm.2) (hb : ∀ k, FiniteMass (bodies k).2) (n : Nat) :
    0 ≤ (arbGain arb warm bodies (n + 1)).dot arb.normal := by
  rw [(arbGain_key arb warm bodies hst hw hb (n + 1)).1]
  refine contactSum_dot _ _ fun c hc => ?_
  have := C35_cone (iterateArb arb bodies n) (by rw [iterateArb_u]; exact hu) (bodies n).1 (bodies n).2
  exact (this c hc).1

/-- A cached pair, that is one which touched a step or two ago, with the impulse it ended with. -/
def exApart : Arbiter ℚ := { exArb with contacts := [{ exContact with hash := 7, jnAcc := 5, jtAcc := 0 }], state := .cached }
/-- Two unit masses moving apart. -/
def exGoing : Body ℚ × Body ℚ := ({ exBall with p := ⟨0, 0⟩, v := ⟨-1, 0⟩ }, { exBall with p := ⟨2, 0⟩, v := ⟨1, 0⟩ })
/-- The pair after it is found touching again. -/
def exAgain : Arbiter ℚ :=
  (exApart.update [{ exContact with hash := 7, r1 := ⟨1, 0⟩, r2 := ⟨1, 0⟩, jnAcc := 0, jtAcc := 0 }] ⟨1, 0⟩ ⟨0, 0⟩ ⟨2, 0⟩
    ⟨0, 0, ⟨0, 0⟩⟩ ⟨0, 0, ⟨0, 0⟩⟩ false).preStep exGoing.1 exGoing.2 1 0 0

/-- **C72, C75** fail for a pair that touches again within `CollisionPersistence` steps: it takes over the old
accumulated impulse, but since it counts as a first collision that impulse is not applied. So the first iteration can
take back an impulse that was never given, which pulls two bodies that move apart, and `TotalImpulse` reports a
push. -/
theorem C72_retouch :
    exAgain.state = .first ∧
    (arbGain exAgain exGoing (fun _ => exGoing) 1).dot exAgain.normal < 0 ∧
    (iterateArb exAgain (fun _ => exGoing) 1).totalImpulse ≠ (arbGain exAgain exGoing (fun _ => exGoing) 1).neg ∧
    FiniteMass exGoing.1 ∧ FiniteMass exGoing.2 ∧ 0 ≤ exAgain.u := by
  unfold FiniteMass
  decide +kernel

/-! ### The hypotheses are met -/

/-- A live arbiter with two contacts, swapped. -/
def exLive : Arbiter ℚ := { exArb with contacts := [exContact, { exContact with hash := 2, jnAcc := 3, jtAcc := 1 }], swapped := true }

example : Live exLive ∧ (exLive.contactPointSet ⟨1, 2⟩ ⟨3, 4⟩).points.length = 2 ∧
    (exLive.setContactPointSet ⟨1, 2⟩ ⟨3, 4⟩ ⟨⟨1, 0⟩, [⟨⟨9, 9⟩, ⟨8, 8⟩, 0⟩, ⟨⟨7, 7⟩, ⟨6, 6⟩, 0⟩]⟩).isSome := by
  refine ⟨Or.inr (Or.inl rfl), ?_, ?_⟩ <;> decide +kernel

/-- One contact persists with its impulses and one is new. -/
example :
    let r := exLive.update [{ exContact with hash := 2 }, { exContact with hash := 5 }] ⟨1, 0⟩ ⟨1, 2⟩ ⟨3, 4⟩ ⟨1/2, 1, ⟨0, 1⟩⟩ ⟨1, 2, ⟨1, 3⟩⟩ false
    r.contacts.map (fun c => (c.jnAcc, c.jtAcc)) = [(3, 1), (0, 0)] ∧ r.surfaceVr = ⟨0, 2⟩ ∧ r.state = .normal := by
  decide +kernel

end Exact

end Cm
