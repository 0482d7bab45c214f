import Verif.Props.World
/-! # C115: bodies that are not connected do not influence each other -/
set_option linter.unusedSectionVars false
set_option linter.unusedSimpArgs false
set_option linter.unusedVariables false

namespace Cm
open Spec
variable {K : Type} [Zero K] [One K] [Add K] [Sub K] [Mul K] [Div K] [Neg K] [NatCast K] [LinearOrder K]


namespace Spec
/-- Both bodies of the link are in the group. -/
def within {α : Type} (V : Nat → Bool) (l : Link α) : Bool := V l.ia && V l.ib

/-- A group of bodies is sealed off: a link is between two of them, or touches none of them but immovable ones. -/
def Sealed {α : Type} (V : Nat → Bool) (bs : Nat → Body K) (ls : List (Link α)) : Prop :=
  ∀ l ∈ ls, within V l = true ∨ (V l.ia = true → Immovable (bs l.ia)) ∧ (V l.ib = true → Immovable (bs l.ib))

/-- Two states of the solver are the same as far as the group is concerned. -/
structure SameGroup (V : Nat → Bool) (s s' : SolverState K) : Prop where
  bodies : ∀ k, V k = true → s'.bodies k = s.bodies k
  arbs : s'.arbs.filter (within V) = s.arbs.filter (within V)
  joints : s'.joints.filter (within V) = s.joints.filter (within V)

/-- Two steps are the same as far as the group is concerned. -/
structure SameTask (V : Nat → Bool) (i i' : StepIn K) : Prop where
  dt : i'.dt = i.dt
  dyn : ∀ k, V k = true → (k ∈ i'.dyn ↔ k ∈ i.dyn)
  arbs : i'.arbs.filter (within V) = i.arbs.filter (within V)

/-- Steps one after the other, the same as far as the group is concerned, in each of which the group is sealed off in both runs. -/
def SameTasks (M : Mth K) (par : Params K) (V : Nat → Bool) : List (StepIn K) → List (StepIn K) → K → SolverState K → SolverState K → Prop
  | [], [], _, _, _ => True
  | i :: is, i' :: is', prevDT, s, s' => SameTask V i i' ∧ Sealed V s.bodies i.arbs ∧ Sealed V s'.bodies i'.arbs ∧
      SameTasks M par V is is' (if i.dt = 0 then prevDT else i.dt) (s.step M par prevDT i) (s'.step M par prevDT i')
  | _, _, _, _, _ => False
end Spec

variable [Spec.Rounded K]

theorem linkLoop_still {α : Type} (f : α → Body K → Body K → Body K × Body K × α) (hf : ∀ x a b, Nudge a b (f x a b).1 (f x a b).2.1) (ls : List (Link α)) :
    ∀ bs : Nat → Body K, (∀ k, SameBut (bs k) ((linkLoop f ls bs).1 k)) ∧ (∀ k, Immovable (bs k) → (linkLoop f ls bs).1 k = bs k) ∧
      (linkLoop f ls bs).2.map (fun l => (l.ia, l.ib)) = ls.map (fun l => (l.ia, l.ib)) := by
  induction ls with
  | nil => intro bs; exact ⟨fun _ => rfl, fun _ _ => rfl, rfl⟩
  | cons l ls ih =>
    intro bs
    have ex := hf l.it (bs l.ia) (bs l.ib)
    have h1 : ∀ k, SameBut (bs k) (putPair bs l.ia l.ib (f l.it (bs l.ia) (bs l.ib)).1 (f l.it (bs l.ia) (bs l.ib)).2.1 k) := by
      intro k
      simp only [putPair]
      split
      · rename_i e; rw [e]; exact ex.sameA
      · split
        · rename_i e; rw [e]; exact ex.sameB
        · rfl
    have h2 : ∀ k, Immovable (bs k) → putPair bs l.ia l.ib (f l.it (bs l.ia) (bs l.ib)).1 (f l.it (bs l.ia) (bs l.ib)).2.1 k = bs k := by
      intro k hk
      simp only [putPair]
      split
      · rename_i e; rw [e] at hk ⊢; exact ex.fixA hk
      · split
        · rename_i e; rw [e] at hk ⊢; exact ex.fixB hk
        · rfl
    obtain ⟨g1, g2, g3⟩ := ih (putPair bs l.ia l.ib (f l.it (bs l.ia) (bs l.ib)).1 (f l.it (bs l.ia) (bs l.ib)).2.1)
    simp only [linkLoop, List.map_cons]
    refine ⟨fun k => (h1 k).trans (g1 k), fun k hk => ?_, by rw [g3]⟩
    rw [g2 k (by rw [h2 k hk]; exact hk), h2 k hk]

/-- A loop over links does to a sealed group what the loop over the links within it does. -/
theorem linkLoop_within {α : Type} (V : Nat → Bool) (f : α → Body K → Body K → Body K × Body K × α) (hf : ∀ x a b, Nudge a b (f x a b).1 (f x a b).2.1)
    (ls : List (Link α)) : ∀ bs bs' : Nat → Body K, Sealed V bs ls → (∀ k, V k = true → bs' k = bs k) →
      (∀ k, V k = true → (linkLoop f (ls.filter (within V)) bs').1 k = (linkLoop f ls bs).1 k) ∧
      (linkLoop f (ls.filter (within V)) bs').2 = (linkLoop f ls bs).2.filter (within V) := by
  induction ls with
  | nil => intro bs bs' _ h; exact ⟨h, rfl⟩
  | cons l ls ih =>
    intro bs bs' hs hb
    have ex := hf l.it (bs l.ia) (bs l.ib)
    have h1 : ∀ k, SameBut (bs k) (putPair bs l.ia l.ib (f l.it (bs l.ia) (bs l.ib)).1 (f l.it (bs l.ia) (bs l.ib)).2.1 k) := by
      intro k
      simp only [putPair]
      split
      · rename_i e; rw [e]; exact ex.sameA
      · split
        · rename_i e; rw [e]; exact ex.sameB
        · rfl
    have hs' : Sealed V (putPair bs l.ia l.ib (f l.it (bs l.ia) (bs l.ib)).1 (f l.it (bs l.ia) (bs l.ib)).2.1) ls := by
      intro m hm
      rcases hs m (List.mem_cons_of_mem _ hm) with h | ⟨h, h'⟩
      · exact .inl h
      · exact .inr ⟨fun v => (h1 _).immovable.1 (h v), fun v => (h1 _).immovable.1 (h' v)⟩
    by_cases hw : within V l = true
    · rw [List.filter_cons_of_pos hw]
      have hv : V l.ia = true ∧ V l.ib = true := by simpa [within] using hw
      simp only [linkLoop]
      rw [hb _ hv.1, hb _ hv.2]
      obtain ⟨g1, g2⟩ := ih _ (putPair bs' l.ia l.ib (f l.it (bs l.ia) (bs l.ib)).1 (f l.it (bs l.ia) (bs l.ib)).2.1) hs' (by
        intro k hk
        simp only [putPair]
        split
        · rfl
        · split
          · rfl
          · exact hb k hk)
      refine ⟨g1, ?_⟩
      rw [List.filter_cons_of_pos (by simpa [within] using hw), g2]
    · rw [List.filter_cons_of_neg hw]
      obtain ⟨ha, hb'⟩ := (hs l List.mem_cons_self).resolve_left hw
      simp only [linkLoop]
      obtain ⟨g1, g2⟩ := ih _ bs' hs' (by
        intro k hk
        rw [hb k hk]
        simp only [putPair]
        split
        · rename_i e; subst e; exact (ex.fixA (ha hk)).symm
        · split
          · rename_i e; subst e; exact (ex.fixB (hb' hk)).symm
          · rfl)
      refine ⟨g1, ?_⟩
      rw [List.filter_cons_of_neg (by simpa [within] using hw), g2]

theorem sealed_transfer {α : Type} {V : Nat → Bool} {bs bs' : Nat → Body K} {ls ls' : List (Link α)} (h : Sealed V bs ls) (hb : ∀ k, Immovable (bs k) → Immovable (bs' k))
    (hl : ls'.map (fun l => (l.ia, l.ib)) = ls.map (fun l => (l.ia, l.ib))) : Sealed V bs' ls' := by
  intro l hm
  have : (l.ia, l.ib) ∈ ls'.map (fun l => (l.ia, l.ib)) := List.mem_map.2 ⟨l, hm, rfl⟩
  rw [hl] at this
  obtain ⟨m, hm', e⟩ := List.mem_map.1 this
  simp only [Prod.mk.injEq] at e
  have := h m hm'
  unfold within at this ⊢
  rw [e.1, e.2] at this
  exact this.imp id fun h => ⟨fun v => hb _ (h.1 v), fun v => hb _ (h.2 v)⟩

/-- What one state needs: the group is sealed off. -/
structure SealedOff (V : Nat → Bool) (s : SolverState K) : Prop where
  arbs : Sealed V s.bodies s.arbs
  joints : Sealed V s.bodies s.joints

/-- A turn over all collisions and all joints. -/
theorem loops_group {V : Nat → Bool} (f : Arbiter K → Body K → Body K → Body K × Body K × Arbiter K) (g : Joint K → Body K → Body K → Body K × Body K × Joint K)
    (hf : ∀ x a b, Nudge a b (f x a b).1 (f x a b).2.1) (hg : ∀ x a b, Nudge a b (g x a b).1 (g x a b).2.1) (s s' : SolverState K)
    (h : SealedOff V s) (h' : SealedOff V s') (hs : SameGroup V s s') :
    SealedOff V ⟨(linkLoop g s.joints (linkLoop f s.arbs s.bodies).1).1, (linkLoop f s.arbs s.bodies).2, (linkLoop g s.joints (linkLoop f s.arbs s.bodies).1).2⟩ ∧
    SealedOff V ⟨(linkLoop g s'.joints (linkLoop f s'.arbs s'.bodies).1).1, (linkLoop f s'.arbs s'.bodies).2, (linkLoop g s'.joints (linkLoop f s'.arbs s'.bodies).1).2⟩ ∧
    SameGroup V ⟨(linkLoop g s.joints (linkLoop f s.arbs s.bodies).1).1, (linkLoop f s.arbs s.bodies).2, (linkLoop g s.joints (linkLoop f s.arbs s.bodies).1).2⟩
      ⟨(linkLoop g s'.joints (linkLoop f s'.arbs s'.bodies).1).1, (linkLoop f s'.arbs s'.bodies).2, (linkLoop g s'.joints (linkLoop f s'.arbs s'.bodies).1).2⟩ := by
  have keep : ∀ s : SolverState K, SealedOff V s → Sealed V (linkLoop f s.arbs s.bodies).1 s.joints ∧
      SealedOff V ⟨(linkLoop g s.joints (linkLoop f s.arbs s.bodies).1).1, (linkLoop f s.arbs s.bodies).2, (linkLoop g s.joints (linkLoop f s.arbs s.bodies).1).2⟩ := by
    intro s h
    obtain ⟨a1, -, a3⟩ := linkLoop_still f hf s.arbs s.bodies
    obtain ⟨b1, -, b3⟩ := linkLoop_still g hg s.joints (linkLoop f s.arbs s.bodies).1
    refine ⟨sealed_transfer h.joints (fun k hk => (a1 k).immovable.1 hk) rfl, ?_, ?_⟩
    · exact sealed_transfer h.arbs (fun k hk => (b1 k).immovable.1 ((a1 k).immovable.1 hk)) a3
    · exact sealed_transfer h.joints (fun k hk => (b1 k).immovable.1 ((a1 k).immovable.1 hk)) b3
  obtain ⟨k1, k2⟩ := keep s h
  obtain ⟨k1', k2'⟩ := keep s' h'
  obtain ⟨a1, a2⟩ := linkLoop_within V f hf s.arbs s.bodies s.bodies h.arbs fun _ _ => rfl
  obtain ⟨a1', a2'⟩ := linkLoop_within V f hf s'.arbs s'.bodies s.bodies h'.arbs fun k hk => (hs.bodies k hk).symm
  rw [hs.arbs] at a1' a2'
  have hb : ∀ k, V k = true → (linkLoop f s'.arbs s'.bodies).1 k = (linkLoop f s.arbs s.bodies).1 k := fun k hk => (a1' k hk).symm.trans (a1 k hk)
  obtain ⟨b1, b2⟩ := linkLoop_within V g hg s.joints _ (linkLoop f s.arbs s.bodies).1 k1 fun _ _ => rfl
  obtain ⟨b1', b2'⟩ := linkLoop_within V g hg s'.joints _ (linkLoop f s.arbs s.bodies).1 k1' fun k hk => (hb k hk).symm
  rw [hs.joints] at b1' b2'
  exact ⟨k2, k2', ⟨fun k hk => (b1' k hk).symm.trans (b1 k hk), a2'.symm.trans a2, b2'.symm.trans b2⟩⟩

theorem iterates_group {V : Nat → Bool} (M : Mth K) (dt : K) (n : Nat) : ∀ s s' : SolverState K, SealedOff V s → SealedOff V s' → SameGroup V s s' →
    SealedOff V ((SolverState.iterate M dt)^[n] s) ∧ SealedOff V ((SolverState.iterate M dt)^[n] s') ∧
    SameGroup V ((SolverState.iterate M dt)^[n] s) ((SolverState.iterate M dt)^[n] s') := by
  induction n with
  | zero => intro s s' h h' hs; exact ⟨h, h', hs⟩
  | succ n ih =>
    intro s s' h h' hs
    rw [Function.iterate_succ_apply, Function.iterate_succ_apply]
    obtain ⟨g1, g2, g3⟩ := loops_group (fun arb a b => arb.applyImpulse a b) (fun jt a b => jt.applyImpulse M a b dt)
      arbNudge (fun x a b => jointNudge M dt x a b) s s' h h' hs
    exact ih _ _ g1 g2 g3

theorem velocities_immovable (M : Mth K) (inf damping : K) (g : V2 K) (dyn : List Nat) (dt : K) (s : SolverState K) (k : Nat) :
    Immovable ((s.velocities M inf damping g dyn dt).bodies k) ↔ Immovable (s.bodies k) := by
  simp only [SolverState.velocities]
  split
  · unfold Body.updateVelocity
    split <;> exact Iff.rfl
  · exact Iff.rfl

theorem positions_immovable (M : Mth K) (dyn : List Nat) (dt : K) (s : SolverState K) (k : Nat) :
    Immovable ((s.positions M dyn dt).bodies k) ↔ Immovable (s.bodies k) := by
  simp only [SolverState.positions]
  split
  · unfold Body.updatePosition; exact Iff.rfl
  · exact Iff.rfl

theorem solve_group {V : Nat → Bool} (M : Mth K) (inf slop cbias damping : K) (g : V2 K) (dyn dyn' : List Nat) (hd : ∀ k, V k = true → (k ∈ dyn' ↔ k ∈ dyn)) (prevDT dt : K)
    (n : Nat) (s s' : SolverState K) (h : SealedOff V s) (h' : SealedOff V s') (hs : SameGroup V s s') :
    SealedOff V (s.solve M inf slop cbias damping g dyn prevDT dt n) ∧ SealedOff V (s'.solve M inf slop cbias damping g dyn' prevDT dt n) ∧
    SameGroup V (s.solve M inf slop cbias damping g dyn prevDT dt n) (s'.solve M inf slop cbias damping g dyn' prevDT dt n) := by
  obtain ⟨a1, a2, a3⟩ := loops_group (fun arb a b => (a, b, arb.preStep a b dt slop (1 - M.pow cbias dt))) (fun jt a b => jt.preStep M inf a b dt)
    (fun x a b => Nudge.refl a b) (fun x a b => jointPreNudge M inf dt x a b) s s' h h' hs
  have b1 : ∀ (dyn : List Nat) (s : SolverState K), SealedOff V s → SealedOff V (s.velocities M inf damping g dyn dt) := fun dyn s h =>
    ⟨sealed_transfer h.arbs (fun k hk => (velocities_immovable M inf damping g dyn dt s k).2 hk) rfl,
      sealed_transfer h.joints (fun k hk => (velocities_immovable M inf damping g dyn dt s k).2 hk) rfl⟩
  have b3 : SameGroup V ((s.preStep M inf slop cbias dt).velocities M inf damping g dyn dt) ((s'.preStep M inf slop cbias dt).velocities M inf damping g dyn' dt) := by
    refine ⟨fun k hk => ?_, a3.arbs, a3.joints⟩
    simp only [SolverState.velocities]
    rw [show (s'.preStep M inf slop cbias dt).bodies k = (s.preStep M inf slop cbias dt).bodies k from a3.bodies k hk]
    simp only [hd k hk]
  obtain ⟨c1, c2, c3⟩ := loops_group (fun arb a b => let t := arb.applyCachedImpulse a b (if prevDT ≠ 0 then dt / prevDT else 0); (t.1, t.2, arb))
    (fun jt a b => let t := jt.applyCached a b (if prevDT ≠ 0 then dt / prevDT else 0); (t.1, t.2, jt))
    (fun x a b => arbCachedNudge x _ a b) (fun x a b => jointCachedNudge x _ a b) _ _ (b1 dyn _ a1) (b1 dyn' _ a2) b3
  exact iterates_group M dt n _ _ c1 c2 c3

/-- **C115.** What a step does to a group of bodies, to the collisions and to the joints within it depends on nothing outside the group, if nothing outside it
is connected with any but its immovable bodies. -/
theorem C115_step {V : Nat → Bool} (M : Mth K) (par : Params K) (prevDT : K) (i i' : StepIn K) (hi : SameTask V i i') (s s' : SolverState K)
    (ha : Sealed V s.bodies i.arbs) (ha' : Sealed V s'.bodies i'.arbs) (hj : Sealed V s.bodies s.joints) (hj' : Sealed V s'.bodies s'.joints) (hs : SameGroup V s s') :
    SameGroup V (s.step M par prevDT i) (s'.step M par prevDT i') ∧
    Sealed V (s.step M par prevDT i).bodies (s.step M par prevDT i).joints ∧ Sealed V (s'.step M par prevDT i').bodies (s'.step M par prevDT i').joints := by
  unfold SolverState.step
  rw [hi.dt]
  by_cases h0 : i.dt = 0
  · rw [if_pos h0, if_pos h0]; exact ⟨hs, hj, hj'⟩
  · rw [if_neg h0, if_neg h0]
    have b1 : ∀ (i : StepIn K) (s : SolverState K), Sealed V s.bodies i.arbs → Sealed V s.bodies s.joints →
        SealedOff V { s.positions M i.dyn i.dt with arbs := i.arbs } := fun i s h1 h2 =>
      ⟨sealed_transfer h1 (fun k hk => (positions_immovable M i.dyn i.dt s k).2 hk) rfl, sealed_transfer h2 (fun k hk => (positions_immovable M i.dyn i.dt s k).2 hk) rfl⟩
    have b1' := b1 i' s' ha' hj'
    rw [hi.dt] at b1'
    obtain ⟨g1, g2, g3⟩ := solve_group M par.inf par.slop par.cbias par.damping par.gravity i.dyn i'.dyn hi.dyn prevDT i.dt par.iterations _ _ (b1 i s ha hj) b1'
      ⟨fun k hk => by simp only [SolverState.positions, hs.bodies k hk, hi.dyn k hk], hi.arbs, hs.joints⟩
    exact ⟨g3, g1.joints, g2.joints⟩

/-- **C115.** The same over any number of steps. -/
theorem C115_steps {V : Nat → Bool} (M : Mth K) (par : Params K) (is : List (StepIn K)) : ∀ (is' : List (StepIn K)) (prevDT : K) (s s' : SolverState K),
    SameTasks M par V is is' prevDT s s' → Sealed V s.bodies s.joints → Sealed V s'.bodies s'.joints → SameGroup V s s' →
    SameGroup V (s.steps M par is prevDT) (s'.steps M par is' prevDT) := by
  induction is with
  | nil =>
    intro is' prevDT s s' ht _ _ hs
    cases is' with
    | nil => exact hs
    | cons _ _ => exact ht.elim
  | cons i is ih =>
    intro is' prevDT s s' ht hj hj' hs
    cases is' with
    | nil => exact ht.elim
    | cons i' is' =>
      obtain ⟨h1, h2, h3, h4⟩ := ht
      obtain ⟨g1, g2, g3⟩ := C115_step M par prevDT i i' h1 s s' h2 h3 hj hj' hs
      simp only [SolverState.steps]
      rw [h1.dt]
      exact ih is' _ _ _ h4 g2 g3 g1

/-! ## In the whole simulation -/

theorem linkLoop_nil {α : Type} (f : α → Body K → Body K → Body K × Body K × α) (bs : Nat → Body K) : linkLoop f [] bs = (bs, []) := rfl

theorem iterates_nil (M : Mth K) (dt : K) (n : Nat) (bs : Nat → Body K) : ((SolverState.iterate M dt)^[n] ⟨bs, [], []⟩) = ⟨bs, [], []⟩ := by
  induction n with
  | zero => rfl
  | succ n ih => rw [Function.iterate_succ_apply]; exact ih

/-- **C115.** A body that nothing touches and no joint holds moves by its own velocity, gravity, damping and the forces on it, whatever happens elsewhere. -/
theorem C115_alone (M : Mth K) (sc : Scene K) (inp : Tick K) (w : World K) (h0 : inp.dt ≠ 0) (k : Nat) (hj : ∀ l ∈ w.joints, l.ia ≠ k ∧ l.ib ≠ k)
    (hc : ∀ l ∈ collisions M sc inp w, l.ia ≠ k ∧ l.ib ≠ k) :
    (w.step M sc inp).bodies k = if k ∈ inp.dyn then ((w.bodies k).updatePosition M inp.dt).updateVelocity sc.par.inf sc.par.gravity (M.pow sc.par.damping inp.dt) inp.dt
      else w.bodies k := by
  obtain ⟨e, -⟩ := C111_step M sc inp w ⟨w.bodies, [], w.joints⟩ rfl rfl
  have none : ∀ {α : Type} (ls : List (Link α)), (∀ l ∈ ls, l.ia ≠ k ∧ l.ib ≠ k) → Sealed (fun j => j == k) w.bodies ls ∧ ls.filter (within fun j => j == k) = [] := by
    intro α ls hl
    constructor
    · intro l hm
      exact .inr ⟨fun h => absurd (by simpa using h) (hl l hm).1, fun h => absurd (by simpa using h) (hl l hm).2⟩
    · rw [List.filter_eq_nil_iff]
      intro l hm h
      simp only [within, Bool.and_eq_true, beq_iff_eq] at h
      exact (hl l hm).1 h.1
  obtain ⟨s1, s2⟩ := none _ hj
  obtain ⟨s3, s4⟩ := none _ hc
  obtain ⟨g, -⟩ := C115_step M sc.par w.prevDT ⟨inp.dt, inp.dyn, []⟩ ⟨inp.dt, inp.dyn, collisions M sc inp w⟩
    ⟨rfl, fun _ _ => Iff.rfl, by rw [s4]; rfl⟩ ⟨w.bodies, [], []⟩ ⟨w.bodies, [], w.joints⟩ (fun _ h => absurd h List.not_mem_nil) s3
    (fun _ h => absurd h List.not_mem_nil) s1 ⟨fun _ _ => rfl, rfl, by rw [s2]; rfl⟩
  rw [e, g.bodies k (by simp)]
  unfold SolverState.step
  rw [if_neg h0]
  unfold SolverState.solve
  simp only [SolverState.preStep, SolverState.velocities, SolverState.cached, SolverState.positions, linkLoop_nil, iterates_nil]
  split <;> rfl

theorem solve_immovable (M : Mth K) (inf slop cbias damping : K) (g : V2 K) (dyn : List Nat) (prevDT dt : K) (n : Nat) (s : SolverState K) (k : Nat)
    (hk : Immovable (s.bodies k)) : (s.solve M inf slop cbias damping g dyn prevDT dt n).bodies k =
      if k ∈ dyn then (s.bodies k).updateVelocity inf g (M.pow damping dt) dt else s.bodies k := by
  have loops : ∀ (f : Arbiter K → Body K → Body K → Body K × Body K × Arbiter K) (g : Joint K → Body K → Body K → Body K × Body K × Joint K)
      (_ : ∀ x a b, Nudge a b (f x a b).1 (f x a b).2.1) (_ : ∀ x a b, Nudge a b (g x a b).1 (g x a b).2.1) (s : SolverState K), Immovable (s.bodies k) →
      (linkLoop g s.joints (linkLoop f s.arbs s.bodies).1).1 k = s.bodies k := by
    intro f g hf hg s hk
    have h1 := (linkLoop_still f hf s.arbs s.bodies).2.1 k hk
    have h2 := (linkLoop_still g hg s.joints (linkLoop f s.arbs s.bodies).1).2.1 k (by rw [h1]; exact hk)
    rw [h2, h1]
  have its : ∀ n (s : SolverState K), Immovable (s.bodies k) → ((SolverState.iterate M dt)^[n] s).bodies k = s.bodies k := by
    intro n
    induction n with
    | zero => intro s _; rfl
    | succ n ih =>
      intro s hk
      rw [Function.iterate_succ_apply]
      have e : (s.iterate M dt).bodies k = s.bodies k := loops (fun arb a b => arb.applyImpulse a b) (fun jt a b => jt.applyImpulse M a b dt)
        arbNudge (fun x a b => jointNudge M dt x a b) s hk
      rw [ih _ (by rw [e]; exact hk), e]
  have e1 : (s.preStep M inf slop cbias dt).bodies k = s.bodies k :=
    loops (fun arb a b => (a, b, arb.preStep a b dt slop (1 - M.pow cbias dt))) (fun jt a b => jt.preStep M inf a b dt)
      (fun x a b => Nudge.refl a b) (fun x a b => jointPreNudge M inf dt x a b) s hk
  have e2 : ((s.preStep M inf slop cbias dt).velocities M inf damping g dyn dt).bodies k = if k ∈ dyn then (s.bodies k).updateVelocity inf g (M.pow damping dt) dt else s.bodies k := by
    simp only [SolverState.velocities, e1]
  have h2 : Immovable (((s.preStep M inf slop cbias dt).velocities M inf damping g dyn dt).bodies k) := by
    rw [velocities_immovable, e1]; exact hk
  have e3 : (((s.preStep M inf slop cbias dt).velocities M inf damping g dyn dt).cached prevDT dt).bodies k =
      ((s.preStep M inf slop cbias dt).velocities M inf damping g dyn dt).bodies k :=
    loops (fun arb a b => let t := arb.applyCachedImpulse a b (if prevDT ≠ 0 then dt / prevDT else 0); (t.1, t.2, arb))
      (fun jt a b => let t := jt.applyCached a b (if prevDT ≠ 0 then dt / prevDT else 0); (t.1, t.2, jt))
      (fun x a b => arbCachedNudge x _ a b) (fun x a b => jointCachedNudge x _ a b) _ h2
  unfold SolverState.solve
  rw [its n _ (by rw [e3]; exact h2), e3, e2]

theorem step_immovable (M : Mth K) (par : Params K) (prevDT : K) (i : StepIn K) (h0 : i.dt ≠ 0) (s : SolverState K) (k : Nat) (hk : Immovable (s.bodies k)) :
    (s.step M par prevDT i).bodies k = if k ∈ i.dyn then ((s.bodies k).updatePosition M i.dt).updateVelocity par.inf par.gravity (M.pow par.damping i.dt) i.dt
      else s.bodies k := by
  unfold SolverState.step
  rw [if_neg h0]
  have hp := (positions_immovable M i.dyn i.dt s k).2 hk
  rw [solve_immovable M par.inf par.slop par.cbias par.damping par.gravity i.dyn prevDT i.dt par.iterations { s.positions M i.dyn i.dt with arbs := i.arbs } k hp]
  simp only [SolverState.positions]
  split <;> rfl

/-- **C115.** A kinematic body keeps the velocity the user gave it and moves by it, whatever it runs into and whatever joint holds it. -/
theorem C115_driven (M : Mth K) (sc : Scene K) (inp : Tick K) (w : World K) (h0 : inp.dt ≠ 0) (k : Nat) (hk : Immovable (w.bodies k))
    (ht : (w.bodies k).type sc.par.inf = .kinematic) (hd : k ∈ inp.dyn) : (w.step M sc inp).bodies k = (w.bodies k).updatePosition M inp.dt := by
  obtain ⟨e, -⟩ := C111_step M sc inp w ⟨w.bodies, [], w.joints⟩ rfl rfl
  rw [e, step_immovable M sc.par w.prevDT _ h0 _ k hk, if_pos hd]
  have : ((w.bodies k).updatePosition M inp.dt).type sc.par.inf = .kinematic := ht
  unfold Body.updateVelocity
  rw [this]
  simp

/-- **C115.** An immovable body that is not stepped, as static bodies are not, stays as it is through any history in which the user does not set it. -/
theorem C115_still (M : Mth K) (sc : Scene K) (k : Nat) (ops : List (WorldOp K)) : ∀ w w' : World K, Immovable (w.bodies k) → w.run M sc ops = some w' →
    (∀ inp, WorldOp.step inp ∈ ops → k ∉ inp.dyn) → (∀ b, WorldOp.setBody k b ∉ ops) → w'.bodies k = w.bodies k := by
  induction ops with
  | nil => intro w w' _ h _ _; rw [← Option.some.inj h]
  | cons op ops ih =>
    intro w w' hk h hs hb
    simp only [World.run] at h
    cases e1 : w.run1 M sc op with
    | none => rw [e1] at h; cases h
    | some w1 =>
      rw [e1] at h
      have hb1 : w1.bodies k = w.bodies k := by
        cases op with
        | step inp =>
          obtain rfl := Option.some.inj e1
          by_cases h0 : inp.dt = 0
          · unfold World.step; rw [if_pos h0]
          · obtain ⟨e, -⟩ := C111_step M sc inp w ⟨w.bodies, [], w.joints⟩ rfl rfl
            have hd := hs inp List.mem_cons_self
            rw [e, step_immovable M sc.par w.prevDT _ h0 _ k hk, if_neg hd]
        | addDyn x => obtain ⟨t, -, rfl⟩ := Option.map_eq_some_iff.1 e1; rfl
        | addStat x => obtain ⟨t, -, rfl⟩ := Option.map_eq_some_iff.1 e1; rfl
        | removeDyn x => obtain ⟨t, -, rfl⟩ := Option.map_eq_some_iff.1 e1; rfl
        | removeStat x => obtain ⟨t, -, rfl⟩ := Option.map_eq_some_iff.1 e1; rfl
        | reindex x => obtain rfl := Option.some.inj e1; rfl
        | setBody j b =>
          obtain rfl := Option.some.inj e1
          have : k ≠ j := fun e => hb b (e ▸ List.mem_cons_self)
          simp only [if_neg this]
        | setJoints js barred => obtain rfl := Option.some.inj e1; rfl
      rw [← hb1]
      exact ih w1 w' (by rw [hb1]; exact hk) h (fun inp hi => hs inp (List.mem_cons_of_mem _ hi)) fun b hi => hb b (List.mem_cons_of_mem _ hi)

/-! ## Examples -/

/-- A block on body 1, alone. -/
def exByItself (ground : Body ℚ) : SolverState ℚ :=
  ⟨fun k => if k = 0 then exBlock else if k = 1 then ground else Body.blank, [⟨0, 1, exArb⟩], [⟨0, 1, .motor ⟨⟨10, 1, 1⟩, 3, 1/2, 0⟩⟩]⟩

/-- The same with a ball further off on body 1, linked with another ball. -/
def exCrowd (ground : Body ℚ) : SolverState ℚ :=
  ⟨fun k => if k = 0 then exBlock else if k = 1 then ground else exBall, [⟨2, 1, exArb⟩, ⟨0, 1, exArb⟩],
    [⟨2, 3, .motor ⟨⟨10, 1, 1⟩, 3, 1/2, 0⟩⟩, ⟨0, 1, .motor ⟨⟨10, 1, 1⟩, 3, 1/2, 0⟩⟩]⟩
def exGround : Body ℚ := { Body.blank with m := 1000000, i := 1000000, idle := 1000000 }
def exHere : Nat → Bool := fun k => decide (k < 2)
def exByItselfStep : StepIn ℚ := ⟨1, [0], [⟨0, 1, exArb⟩]⟩
def exCrowdStep : StepIn ℚ := ⟨1, [0, 2, 3], [⟨2, 1, exArb⟩, ⟨0, 1, exArb⟩]⟩

theorem exGround_sealed (bs : Nat → Body ℚ) (h : Immovable (bs 1)) : Sealed exHere bs (exByItself exGround).joints ∧ Sealed exHere bs (exCrowd exGround).joints ∧
    Sealed exHere bs exByItselfStep.arbs ∧ Sealed exHere bs exCrowdStep.arbs := by
  refine ⟨?_, ?_, ?_, ?_⟩
  · intro l hl
    simp only [exByItself, List.mem_singleton] at hl
    subst hl; exact .inl rfl
  · intro l hl
    simp only [exCrowd, List.mem_cons, List.not_mem_nil, or_false] at hl
    rcases hl with rfl | rfl
    · exact .inr ⟨fun h => absurd h (by decide), fun h => absurd h (by decide)⟩
    · exact .inl rfl
  · intro l hl
    simp only [exByItselfStep, List.mem_singleton] at hl
    subst hl; exact .inl rfl
  · intro l hl
    simp only [exCrowdStep, List.mem_cons, List.not_mem_nil, or_false] at hl
    rcases hl with rfl | rfl
    · exact .inr ⟨fun h => absurd h (by decide), fun _ => h⟩
    · exact .inl rfl

example : Sealed exHere (exByItself exGround).bodies (exByItself exGround).joints ∧ Sealed exHere (exCrowd exGround).bodies (exCrowd exGround).joints ∧
    SameGroup exHere (exByItself exGround) (exCrowd exGround) ∧
    SameTasks toyMth exParams exHere [exByItselfStep, exByItselfStep] [exCrowdStep, exCrowdStep] 0 (exByItself exGround) (exCrowd exGround) ∧
    (((exByItself exGround).steps toyMth exParams [exByItselfStep, exByItselfStep] 0).bodies 0).v ≠ ((exByItself exGround).bodies 0).v := by
  have same : SameTask exHere exByItselfStep exCrowdStep := ⟨rfl, fun k hk => by
    have : k < 2 := by simpa [exHere] using hk
    simp only [exByItselfStep, exCrowdStep, List.mem_cons, List.not_mem_nil, or_false]; omega, rfl⟩
  refine ⟨(exGround_sealed _ ⟨rfl, rfl⟩).1, (exGround_sealed _ ⟨rfl, rfl⟩).2.1, ⟨fun k hk => ?_, rfl, rfl⟩, ⟨same, (exGround_sealed _ ⟨rfl, rfl⟩).2.2.1,
    (exGround_sealed _ ⟨rfl, rfl⟩).2.2.2, same, (exGround_sealed _ ?_).2.2.1, (exGround_sealed _ ?_).2.2.2, trivial⟩, by decide +kernel⟩
  · have : k < 2 := by simpa [exHere] using hk
    simp only [exByItself, exCrowd]
    split
    · rfl
    · rw [if_pos (by omega), if_pos (by omega)]
  · rw [step_immovable _ _ _ _ (by decide +kernel) _ 1 ⟨rfl, rfl⟩]; exact ⟨rfl, rfl⟩
  · rw [step_immovable _ _ _ _ (by decide +kernel) _ 1 ⟨rfl, rfl⟩]; exact ⟨rfl, rfl⟩

/-- The hypothesis that what they share is immovable is needed: with a movable body between them, the ball does move the block. -/
example : (((exByItself exBall).step toyMth exParams 0 exByItselfStep).bodies 0).v ≠ (((exCrowd exBall).step toyMth exParams 0 exCrowdStep).bodies 0).v := by decide +kernel

/-- In `exWorld` the third ball touches nothing in the first two steps, while the first runs into the second. -/
example : exTick.dt ≠ 0 ∧ (∀ w, exWorld.run exMth exBalls3 [.addDyn 0, .addDyn 1, .addDyn 2, .step exTick] = some w →
    (∀ l ∈ w.joints, l.ia ≠ 2 ∧ l.ib ≠ 2) ∧ (∀ l ∈ collisions exMth exBalls3 exTick w, l.ia ≠ 2 ∧ l.ib ≠ 2) ∧ collisions exMth exBalls3 exTick w ≠ []) := by
  refine ⟨by decide +kernel, fun w h => ?_⟩
  have hj : ((exWorld.run exMth exBalls3 [.addDyn 0, .addDyn 1, .addDyn 2, .step exTick]).map fun w => w.joints.map fun l => (l.ia, l.ib)) = some [] := by decide +kernel
  have hc : ((exWorld.run exMth exBalls3 [.addDyn 0, .addDyn 1, .addDyn 2, .step exTick]).map fun w => (collisions exMth exBalls3 exTick w).map fun l => (l.ia, l.ib)) =
    some [(0, 1)] := by decide +kernel
  rw [h] at hj hc
  simp only [Option.map_some, Option.some.injEq] at hj hc
  have hj' : w.joints = [] := List.map_eq_nil_iff.1 hj
  refine ⟨by rw [hj']; intro l h; exact absurd h List.not_mem_nil, fun l hl => ?_, fun e => by rw [e] at hc; cases hc⟩
  have := List.mem_map_of_mem (f := fun l : Link (Arbiter ℚ) => (l.ia, l.ib)) hl
  rw [hc, List.mem_singleton, Prod.mk.injEq] at this
  omega

/-- A lift that is driven upwards: kinematic, and stepped. -/
def exLift : World ℚ := { exWorld with bodies := fun k => if k = 0 then { Body.blank with m := 100000, i := 100000, v := ⟨0, 2⟩ } else exWorld.bodies k }
example : Immovable (exLift.bodies 0) ∧ (exLift.bodies 0).type exBalls3.par.inf = .kinematic ∧ 0 ∈ exTick.dyn ∧
    ((exLift.step exMth exBalls3 exTick).bodies 0).p = ⟨0, 1⟩ := ⟨⟨rfl, rfl⟩, by decide +kernel, by decide, by decide +kernel⟩

/-- A history in which a ground under three balls is not stepped. -/
example : Immovable ((World.init (fun _ => exGround) exWorld.shapes).bodies 3) ∧ ((World.init (fun _ => exGround) exWorld.shapes).run exMth exBalls3 exDo).isSome ∧
    (∀ inp, WorldOp.step inp ∈ exDo → 3 ∉ inp.dyn) ∧ ∀ b, WorldOp.setBody 3 b ∉ exDo := by
  refine ⟨⟨rfl, rfl⟩, by decide +kernel, fun inp h => ?_, fun b h => ?_⟩
  · simp only [exDo, List.mem_cons, List.not_mem_nil, or_false, reduceCtorEq, false_or, WorldOp.step.injEq] at h
    rcases h with rfl | rfl <;> decide
  · simp [exDo] at h

end Cm
