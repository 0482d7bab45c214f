import Verif.Props.WorldPhase
import Verif.Props.Contact
import Verif.Props.ContactSet
import Verif.Props.Groups
/-! # C116: what the whole simulation remembers of a collision -/
set_option linter.unusedSectionVars false
set_option linter.unusedSimpArgs false
set_option linter.unusedVariables false

namespace Cm
open Spec

section Any
variable {K : Type} [Zero K] [One K] [Add K] [Sub K] [Mul K] [Div K] [Neg K] [NatCast K] [LinearOrder K] [Spec.Rounded K]

namespace Spec
/-- The friction between two shapes. -/
def grip (sc : Scene K) (a b : Nat) : K := (sc.figs a).surface.friction * (sc.figs b).surface.friction

/-- A contact pushes, with friction within the cone. -/
def Pushes (u : K) (c : Contact K) : Prop := 0 ≤ c.jnAcc ∧ fabs c.jtAcc ≤ u * c.jnAcc
end Spec

/-! ## Impulses, in every history -/

/-- What holds of every kept arbiter. -/
def Gripping (sc : Scene K) (a b : Nat) (arb : Arbiter K) : Prop := arb.u = grip sc a b ∧ ∀ c ∈ arb.contacts, Pushes (grip sc a b) c

theorem grip_same (sc : Scene K) {p q : Nat × Nat} (h : SameTwo p q) : grip sc p.1 p.2 = grip sc q.1 q.2 := by
  rcases h with rfl | rfl
  · rfl
  · exact Rounded.mul_comm _ _

theorem Gripping.same {sc : Scene K} {a b a' b' : Nat} {arb : Arbiter K} (h : Gripping sc a b arb) (hs : SameTwo (a, b) (a', b')) : Gripping sc a' b' arb := by
  have := grip_same sc hs
  unfold Gripping at *
  dsimp only at this
  rw [← this]; exact h

theorem linkLoop_all {α : Type} (f : α → Body K → Body K → Body K × Body K × α) (P : α → Prop) (hf : ∀ x a b, P x → P (f x a b).2.2) (ls : List (Link α)) :
    ∀ bs : Nat → Body K, (∀ l ∈ ls, P l.it) → ∀ l ∈ (linkLoop f ls bs).2, P l.it := by
  induction ls with
  | nil => intro bs _ l hl; cases hl
  | cons x ls ih =>
    intro bs hP l hl
    simp only [linkLoop, List.mem_cons] at hl
    rcases hl with rfl | hl
    · exact hf _ _ _ (hP x List.mem_cons_self)
    · exact ih _ (fun l hl => hP l (List.mem_cons_of_mem _ hl)) l hl

/-- A property of arbiters that the three things the solver does to an arbiter keep, the solver keeps. -/
theorem solve_all (P : Arbiter K → Prop) (h1 : ∀ arb a b dt slop bias, P arb → P (arb.preStep a b dt slop bias)) (h2 : ∀ arb a b, P arb → P (arb.applyImpulse a b).2.2)
    (M : Mth K) (inf slop cbias damping : K) (g : V2 K) (dyn : List Nat) (prevDT dt : K) (n : Nat) (s : SolverState K) (h : ∀ l ∈ s.arbs, P l.it) :
    ∀ l ∈ (s.solve M inf slop cbias damping g dyn prevDT dt n).arbs, P l.it := by
  have e1 : ∀ l ∈ (s.preStep M inf slop cbias dt).arbs, P l.it := linkLoop_all _ P (fun x a b hx => h1 x a b _ _ _ hx) _ _ h
  unfold SolverState.solve
  generalize s.preStep M inf slop cbias dt = s1 at e1 ⊢
  have e2 : ∀ l ∈ ((s1.velocities M inf damping g dyn dt).cached prevDT dt).arbs, P l.it :=
    linkLoop_all (fun (arb : Arbiter K) (a b : Body K) => let t := arb.applyCachedImpulse a b (if prevDT ≠ 0 then dt / prevDT else 0); (t.1, t.2, arb)) P (fun x a b hx => hx) _ _ e1
  generalize (s1.velocities M inf damping g dyn dt).cached prevDT dt = s3 at e2 ⊢
  clear e1
  induction n generalizing s3 with
  | zero => exact e2
  | succ n ih =>
    rw [Function.iterate_succ_apply]
    exact ih _ (linkLoop_all (fun (arb : Arbiter K) (a b : Body K) => arb.applyImpulse a b) P (fun x a b hx => h2 x a b hx) _ _ e2)

/-- What the solver leaves alone of the links, as `φ` says. -/
theorem solve_items {β : Type} (φ : Arbiter K → β) (h1 : ∀ arb a b dt slop bias, φ (arb.preStep a b dt slop bias) = φ arb) (h2 : ∀ arb a b, φ (arb.applyImpulse a b).2.2 = φ arb)
    (M : Mth K) (inf slop cbias damping : K) (g : V2 K) (dyn : List Nat) (prevDT dt : K) (n : Nat) (s : SolverState K) :
    (s.solve M inf slop cbias damping g dyn prevDT dt n).arbs.map (fun l => (l.ia, l.ib, φ l.it)) = s.arbs.map (fun l => (l.ia, l.ib, φ l.it)) := by
  have key : ∀ (f : Arbiter K → Body K → Body K → Body K × Body K × Arbiter K) (hf : ∀ x a b, φ (f x a b).2.2 = φ x) (ls : List (Link (Arbiter K))) (bs : Nat → Body K),
      (linkLoop f ls bs).2.map (fun l => (l.ia, l.ib, φ l.it)) = ls.map (fun l => (l.ia, l.ib, φ l.it)) := by
    intro f hf ls
    induction ls with
    | nil => intro bs; rfl
    | cons l ls ih => intro bs; simp only [linkLoop, List.map_cons, hf, ih]
  have e1 : (s.preStep M inf slop cbias dt).arbs.map (fun l => (l.ia, l.ib, φ l.it)) = s.arbs.map (fun l => (l.ia, l.ib, φ l.it)) :=
    key _ (fun x a b => h1 x a b _ _ _) _ _
  unfold SolverState.solve
  generalize s.preStep M inf slop cbias dt = s1 at e1 ⊢
  have e2 : ((s1.velocities M inf damping g dyn dt).cached prevDT dt).arbs.map (fun l => (l.ia, l.ib, φ l.it)) = s1.arbs.map (fun l => (l.ia, l.ib, φ l.it)) :=
    key (fun arb a b => let t := arb.applyCachedImpulse a b (if prevDT ≠ 0 then dt / prevDT else 0); (t.1, t.2, arb)) (fun x a b => rfl) _ _
  generalize (s1.velocities M inf damping g dyn dt).cached prevDT dt = s3 at e2 ⊢
  rw [← e1, ← e2]
  clear e1 e2
  induction n generalizing s3 with
  | zero => rfl
  | succ n ih =>
    rw [Function.iterate_succ_apply, ih]
    exact key (fun arb a b => arb.applyImpulse a b) (fun x a b => h2 x a b) _ _

theorem clamp_fabs {f m : K} (hm : 0 ≤ m) : fabs (clamp f (-m) m) ≤ m := by
  have h0 : -m ≤ m := by
    have := Rounded.neg_le_neg 0 m hm
    rw [Rounded.neg_zero] at this
    exact this.trans hm
  have h : -m ≤ clamp f (-m) m ∧ clamp f (-m) m ≤ m := by
    unfold clamp
    split
    · rename_i h1; exact ⟨le_min (le_of_lt h1) h0, min_le_right _ _⟩
    · exact ⟨le_min le_rfl h0, min_le_right _ _⟩
  have := Rounded.neg_le_neg _ _ h.1
  rw [Rounded.neg_neg] at this
  exact max_le h.2 this

theorem cone_loop (n sv : V2 K) {u : K} (hu : 0 ≤ u) (cs : List (Contact K)) : ∀ a b : Body K, ∀ c ∈ (Arbiter.impulseLoop n sv u cs a b).2.2, Pushes u c := by
  induction cs with
  | nil => intro a b c hc; exact absurd hc List.not_mem_nil
  | cons c cs ih =>
    intro a b d hd
    simp only [Arbiter.impulseLoop, List.mem_cons] at hd
    rcases hd with rfl | hd
    · exact ⟨le_max_right _ _, clamp_fabs (Rounded.mul_nonneg _ _ hu (le_max_right _ _))⟩
    · exact ih _ _ d hd

/-- Every iteration leaves contacts that push, with friction within the cone, in any arithmetic that rounds. -/
theorem cone_any (arb : Arbiter K) (hu : 0 ≤ arb.u) (a b : Body K) : ∀ c ∈ (arb.applyImpulse a b).2.2.contacts, Pushes arb.u c :=
  cone_loop arb.normal arb.surfaceVr hu arb.contacts a b

theorem preStep_gripping {sc : Scene K} {p q : Nat} {arb : Arbiter K} (h : Gripping sc p q arb) (a b : Body K) (dt slop bias : K) :
    Gripping sc p q (arb.preStep a b dt slop bias) := by
  refine ⟨h.1, fun c hc => ?_⟩
  simp only [Arbiter.preStep, List.mem_map] at hc
  obtain ⟨d, hd, rfl⟩ := hc
  exact h.2 d hd

theorem applyImpulse_gripping {sc : Scene K} {p q : Nat} {arb : Arbiter K} (hu : 0 ≤ grip sc p q) (h : Gripping sc p q arb) (a b : Body K) :
    Gripping sc p q (arb.applyImpulse a b).2.2 := by
  refine ⟨h.1, fun c hc => ?_⟩
  have := cone_any arb (by rw [h.1]; exact hu) a b c hc
  rw [h.1] at this
  exact this

theorem store_all (Q : Nat → Nat → Arbiter K → Prop) (ls : List ((Nat × Nat) × Link (Arbiter K))) : ∀ c : List (Held K), (∀ h ∈ c, Q h.a h.b h.arb) →
    (∀ pl ∈ ls, ∀ h ∈ c, h.is pl.1.1 pl.1.2 = true → Q h.a h.b pl.2.it) →
    ∀ h ∈ ls.foldl (fun c pl => c.map fun h => if h.is pl.1.1 pl.1.2 then { h with arb := pl.2.it } else h) c, Q h.a h.b h.arb := by
  induction ls with
  | nil => intro c hc _; exact hc
  | cons pl ls ih =>
    intro c hc hp
    rw [List.foldl_cons]
    refine ih _ (fun h hh => ?_) fun pl' hpl' h hh hi => ?_
    · obtain ⟨h0, hh0, rfl⟩ := List.mem_map.1 hh
      split
      · rename_i hi; exact hp pl List.mem_cons_self h0 hh0 hi
      · exact hc h0 hh0
    · obtain ⟨h0, hh0, rfl⟩ := List.mem_map.1 hh
      have e : (if h0.is pl.1.1 pl.1.2 = true then ({ h0 with arb := pl.2.it } : Held K) else h0).a = h0.a ∧
          (if h0.is pl.1.1 pl.1.2 = true then ({ h0 with arb := pl.2.it } : Held K) else h0).b = h0.b := by split <;> exact ⟨rfl, rfl⟩
      rw [is_iff, e.1, e.2] at hi
      rw [e.1, e.2]
      exact hp pl' (List.mem_cons_of_mem _ hpl') h0 hh0 ((is_iff h0 _ _).2 hi)

theorem heldArb_of (Q : Nat → Nat → Arbiter K → Prop) {c : List (Held K)} (hc : ∀ h ∈ c, Q h.a h.b h.arb) (a b : Nat) :
    heldArb c a b = Arbiter.blank ∧ (∀ h ∈ c, h.is a b = false) ∨ ∃ h ∈ c, SameTwo (h.a, h.b) (a, b) ∧ heldArb c a b = h.arb ∧ Q h.a h.b (heldArb c a b) := by
  unfold heldArb
  cases e : c.find? (fun o => o.is a b) with
  | none =>
    refine .inl ⟨rfl, fun h hh => ?_⟩
    have := List.find?_eq_none.1 e h hh
    simpa using this
  | some h => exact .inr ⟨h, List.mem_of_find?_eq_some e, (is_iff h a b).1 (by simpa using List.find?_some e), rfl, hc h (List.mem_of_find?_eq_some e)⟩

theorem refresh_gripping {u : K} (hu : 0 ≤ u) (old : List (Contact K)) (ho : ∀ c ∈ old, Pushes u c) (pa pb : V2 K) (c : Contact K) : Pushes u (refreshContact old pa pb c) := by
  obtain ⟨-, -, -, c4⟩ := copyOld_spec old { c with r1 := c.r1.sub pa, r2 := c.r2.sub pb, jnAcc := 0, jtAcc := 0 }
  unfold refreshContact Pushes
  rcases c4 with ⟨-, j2, j3⟩ | ⟨l, o, r, j1, -, -, j4, j5⟩
  · rw [j2, j3]
    refine ⟨le_rfl, ?_⟩
    simp only [fabs, Rounded.neg_zero, Rounded.mul_zero, max_self, le_refl]
  · rw [j4, j5]; exact ho o (by rw [j1]; simp)

theorem updated_gripping {sc : Scene K} (hfr : ∀ i, 0 ≤ (sc.figs i).surface.friction) (inp : Tick K) (w : World K) (hw : ∀ h ∈ w.cache, Gripping sc h.a h.b h.arb)
    (ab : Nat × Nat) (info : Info K) : Gripping sc ab.1 ab.2 (w.updated sc inp ab info) := by
  have hold : ∀ c ∈ (heldArb w.cache ab.1 ab.2).contacts, Pushes (grip sc ab.1 ab.2) c := by
    rcases heldArb_of (Gripping sc) hw ab.1 ab.2 with ⟨e, -⟩ | ⟨h, hh, hs, -, hg⟩
    · rw [e]; intro c hc; cases hc
    · exact (hg.same hs).2
  have hup : Gripping sc ab.1 ab.2 ((heldArb w.cache ab.1 ab.2).update (info.contacts.map Pushed.contact) info.n (w.bodies (sc.figs ab.1).body).p (w.bodies (sc.figs ab.2).body).p
      (sc.figs ab.1).surface (sc.figs ab.2).surface (sc.swap ab.1 ab.2)) := by
    refine ⟨rfl, fun c hc => ?_⟩
    simp only [Arbiter.update, List.mem_map] at hc
    obtain ⟨d, -, rfl⟩ := hc
    exact refresh_gripping (Rounded.mul_nonneg _ _ (hfr _) (hfr _)) _ hold _ _ d
  unfold World.updated
  dsimp only
  split
  · exact ⟨hup.1, hup.2⟩
  · exact hup

theorem entry_gripping {sc : Scene K} (hfr : ∀ i, 0 ≤ (sc.figs i).surface.friction) (M : Mth K) (inp : Tick K) (w : World K) (hw : ∀ h ∈ w.cache, Gripping sc h.a h.b h.arb)
    (p : Nat × Nat) (h : Held K) (he : w.entry M sc inp p = some h) : Gripping sc h.a h.b h.arb := by
  unfold World.entry at he
  obtain ⟨info, -, rfl⟩ := Option.map_eq_some_iff.1 he
  have := updated_gripping hfr inp w hw (info.pair p) info
  dsimp only
  split
  · exact this
  · exact ⟨this.1, fun c hc => by cases hc⟩

theorem meets_gripping {sc : Scene K} (hfr : ∀ i, 0 ≤ (sc.figs i).surface.friction) (M : Mth K) (inp : Tick K) (calls : List (Nat × Nat)) : ∀ w : World K,
    (∀ h ∈ w.cache, Gripping sc h.a h.b h.arb) → ∀ h ∈ (calls.foldl (World.meet M sc inp) w).cache, Gripping sc h.a h.b h.arb := by
  induction calls with
  | nil => intro w hw; exact hw
  | cons p calls ih =>
    intro w hw
    rw [List.foldl_cons]
    refine ih _ fun h hh => ?_
    rw [meet_cache] at hh
    cases e : w.entry M sc inp p with
    | none => rw [e] at hh; exact hw h hh
    | some o =>
      rw [e] at hh
      rcases putHeld_mem hh with rfl | hh
      · exact entry_gripping hfr M inp w hw p h e
      · exact hw h hh

theorem keep_arb (sc : Scene K) (w : World K) (h o : Held K) (e : w.keep sc h = some o) :
    o.arb.contacts = h.arb.contacts ∧ o.arb.u = h.arb.u := by
  unfold World.keep at e
  split at e
  · cases e; exact ⟨rfl, rfl⟩
  · dsimp only at e
    split at e
    · cases e
    · cases e
      split <;> exact ⟨rfl, rfl⟩

theorem swept_gripping {sc : Scene K} {w : World K} (hw : ∀ h ∈ w.cache, Gripping sc h.a h.b h.arb) : ∀ h ∈ (w.swept sc).cache, Gripping sc h.a h.b h.arb := by
  intro o ho
  obtain ⟨h, hh, e⟩ := List.mem_filterMap.1 ho
  obtain ⟨k1, k2, -⟩ := keep_frame sc w h o e
  obtain ⟨k3, k4⟩ := keep_arb sc w h o e
  have := hw h hh
  unfold Gripping at *
  rw [k1, k2, k3, k4]; exact this

theorem aged_gripping {sc : Scene K} {w : World K} (hw : ∀ h ∈ w.cache, Gripping sc h.a h.b h.arb) : ∀ h ∈ w.aged, Gripping sc h.a h.b h.arb := by
  intro o ho
  unfold World.aged at ho
  obtain ⟨h, hh, rfl⟩ := List.mem_map.1 ho
  split
  · exact ⟨(hw h hh).1, (hw h hh).2⟩
  · exact hw h hh

theorem found_gripping {sc : Scene K} (hfr : ∀ i, 0 ≤ (sc.figs i).surface.friction) (M : Mth K) (inp : Tick K) {w : World K}
    (hw : ∀ h ∈ w.cache, Gripping sc h.a h.b h.arb) : ∀ h ∈ ((w.found M sc inp).swept sc).cache, Gripping sc h.a h.b h.arb :=
  swept_gripping (meets_gripping hfr M inp _ (w.begun M sc inp) (aged_gripping hw))

theorem step_gripping {sc : Scene K} (hfr : ∀ i, 0 ≤ (sc.figs i).surface.friction) (M : Mth K) (inp : Tick K) {w : World K}
    (hw : ∀ h ∈ w.cache, Gripping sc h.a h.b h.arb) : ∀ h ∈ (w.step M sc inp).cache, Gripping sc h.a h.b h.arb := by
  unfold World.step
  by_cases h0 : inp.dt = 0
  · rw [if_pos h0]; exact hw
  rw [if_neg h0]
  have hf := found_gripping hfr M inp hw
  generalize (w.found M sc inp).swept sc = f at hf
  refine store_all (Gripping sc) _ _ hf ?_
  intro pl hpl h hh hi
  have hu := solve_items (fun a : Arbiter K => a.u) (fun arb a b dt slop bias => rfl) (fun arb a b => rfl) M sc.par.inf sc.par.slop sc.par.cbias sc.par.damping sc.par.gravity
    inp.dyn w.prevDT inp.dt sc.par.iterations (f.solver sc)
  have hall := solve_all (fun arb : Arbiter K => 0 ≤ arb.u ∧ ∀ c ∈ arb.contacts, Pushes arb.u c)
    (fun arb a b dt slop bias hP => ⟨hP.1, fun c hc => by
      simp only [Arbiter.preStep, List.mem_map] at hc
      obtain ⟨d, hd, rfl⟩ := hc
      exact hP.2 d hd⟩)
    (fun arb a b hP => ⟨hP.1, fun c hc => cone_any arb hP.1 a b c hc⟩) M sc.par.inf sc.par.slop sc.par.cbias sc.par.damping sc.par.gravity
    inp.dyn w.prevDT inp.dt sc.par.iterations (f.solver sc) (by
      intro l hl
      simp only [World.solver, List.mem_map] at hl
      obtain ⟨p, -, rfl⟩ := hl
      rcases heldArb_of (Gripping sc) hf p.1 p.2 with ⟨e, -⟩ | ⟨h, hh, hs, -, hg⟩
      · rw [e]; exact ⟨le_refl (0 : K), fun c hc => by cases hc⟩
      · have := hg.same hs
        rw [this.1]
        exact ⟨Rounded.mul_nonneg _ _ (hfr _) (hfr _), this.2⟩)
  generalize (f.solver sc).solve M sc.par.inf sc.par.slop sc.par.cbias sc.par.damping sc.par.gravity inp.dyn w.prevDT inp.dt sc.par.iterations = s at hu hall hpl
  have hin : (f.solver sc).arbs.map (fun l => (l.ia, l.ib, l.it.u)) = f.active.map fun p => ((sc.figs p.1).body, (sc.figs p.2).body, (heldArb f.cache p.1 p.2).u) := by
    simp only [World.solver, List.map_map]; rfl
  rw [hin] at hu
  obtain ⟨k, hk, e⟩ := List.mem_iff_getElem.1 hpl
  rw [List.getElem_zip] at e
  subst e
  simp only [List.length_zip, lt_min_iff] at hk
  have := congrArg (fun l => l[k]?) hu
  simp only [List.getElem?_map, List.getElem?_eq_getElem hk.1, List.getElem?_eq_getElem hk.2, Option.map_some, Option.some.injEq, Prod.mk.injEq] at this
  have hu' := this.2.2
  rcases heldArb_of (Gripping sc) hf f.active[k].1 f.active[k].2 with ⟨-, hn⟩ | ⟨h', hh', hs', -, hg⟩
  · rw [hn h hh] at hi; cases hi
  · have hs2 : SameTwo (h'.a, h'.b) (h.a, h.b) := hs'.trans (SameTwo.symm ((is_iff h _ _).1 hi))
    have hg2 := hg.same hs2
    rw [hg2.1] at hu'
    obtain ⟨g1, g2⟩ := hall s.arbs[k] (List.getElem_mem _)
    rw [hu'] at g2
    exact ⟨hu', g2⟩

theorem run1_gripping {sc : Scene K} (hfr : ∀ i, 0 ≤ (sc.figs i).surface.friction) (M : Mth K) (op : WorldOp K) {w w' : World K} (hw : ∀ h ∈ w.cache, Gripping sc h.a h.b h.arb)
    (e : w.run1 M sc op = some w') : ∀ h ∈ w'.cache, Gripping sc h.a h.b h.arb := by
  cases op with
  | step inp => obtain rfl := Option.some.inj e; exact step_gripping hfr M inp hw
  | addDyn x => obtain ⟨t, -, rfl⟩ := Option.map_eq_some_iff.1 e; exact hw
  | addStat x => obtain ⟨t, -, rfl⟩ := Option.map_eq_some_iff.1 e; exact hw
  | removeDyn x => obtain ⟨t, -, rfl⟩ := Option.map_eq_some_iff.1 e; exact fun h hh => hw h (List.mem_filter.1 hh).1
  | removeStat x => obtain ⟨t, -, rfl⟩ := Option.map_eq_some_iff.1 e; exact fun h hh => hw h (List.mem_filter.1 hh).1
  | reindex x => obtain rfl := Option.some.inj e; exact hw
  | setBody j b => obtain rfl := Option.some.inj e; exact hw
  | setJoints js barred => obtain rfl := Option.some.inj e; exact hw

theorem run_gripping {sc : Scene K} (hfr : ∀ i, 0 ≤ (sc.figs i).surface.friction) (M : Mth K) (ops : List (WorldOp K)) : ∀ w w' : World K,
    (∀ h ∈ w.cache, Gripping sc h.a h.b h.arb) → w.run M sc ops = some w' → ∀ h ∈ w'.cache, Gripping sc h.a h.b h.arb := by
  induction ops with
  | nil => intro w w' hw e; rw [← Option.some.inj e]; exact hw
  | cons op ops ih =>
    intro w w' hw e
    simp only [World.run] at e
    cases e1 : w.run1 M sc op with
    | none => rw [e1] at e; cases e
    | some w1 => rw [e1] at e; exact ih w1 w' (run1_gripping hfr M op hw e1) e

/-- **C116.** Whatever the history, the impulses kept for any contact push, with friction within the cone of the friction of the two shapes, and so do the
impulses every contact of the next step starts from. -/
theorem C116_cone (M : Mth K) (sc : Scene K) (hfr : ∀ i, 0 ≤ (sc.figs i).surface.friction) (bodies : Nat → Body K) (shapes : Nat → CShape K) (ops : List (WorldOp K))
    (w : World K) (e : (World.init bodies shapes).run M sc ops = some w) :
    (∀ h ∈ w.cache, ∀ c ∈ h.arb.contacts, Pushes (grip sc h.a h.b) c) ∧
    ∀ (inp : Tick K), ∀ l ∈ collisions M sc inp w, ∀ c ∈ l.it.contacts, Pushes l.it.u c := by
  have hw := run_gripping hfr M ops _ w (fun h hh => by cases hh) e
  refine ⟨fun h hh => (hw h hh).2, fun inp l hl => ?_⟩
  have hf := found_gripping hfr M inp hw
  simp only [collisions, World.solver, List.mem_map] at hl
  obtain ⟨p, -, rfl⟩ := hl
  rcases heldArb_of (Gripping sc) hf p.1 p.2 with ⟨e, -⟩ | ⟨h, hh, hs, -, hg⟩
  · rw [e]; exact fun c hc => by cases hc
  · rw [hg.1]; exact hg.2

/-! ## What is stored is what the solver left -/

theorem calls_distinct (M : Mth K) {sc : Scene K} (hm : Boxed sc) {r : Roster} {w : World K} (h : Indexed sc r w)
    (inp : Tick K) (ho : Ordered sc r (.step inp)) : (w.calls M sc inp).Pairwise (fun p q => ¬ SameTwo p q) := by
  obtain ⟨hb, -⟩ := begun_indexed M hm h inp ho
  obtain ⟨m, hr, hm1, -⟩ := h.index
  have hleg : Legal m (.reindexQuery inp.order (fun i => ((w.begun M sc inp).shapes i).bb) fun i => ((w.begun M sc inp).bodies (sc.figs i).body).v) := by
    refine ⟨hb.proper, ho.1, fun i => ?_⟩
    rw [ho.2.1, ← hm1]
    cases m i with
    | none => simp
    | some x => obtain ⟨b, bb⟩ := x; simp
  exact (rel_calls hr hleg).1

namespace Spec
/-- Every collision passed to the solver is in the files once, and no two shapes have two arbiters. -/
structure Filed (w : World K) : Prop where
  one : OneEach w.cache
  apart : w.active.Pairwise fun p q => ¬ SameTwo p q
  held : ∀ p ∈ w.active, ∃ h ∈ w.cache, (h.a, h.b) = p
end Spec

theorem solved_pair {M : Mth K} {sc : Scene K} {inp : Tick K} {w : World K} {p q : Nat × Nat} (h : w.solved M sc inp p = some q) :
    ∃ info, w.hit M sc p = some info ∧ q = info.pair p ∧ w.passes sc inp (info.pair p) (w.updated sc inp (info.pair p) info) := by
  unfold World.solved at h
  cases e : w.hit M sc p with
  | none => rw [e] at h; cases h
  | some info =>
    rw [e] at h
    dsimp only at h
    split at h
    · rename_i hp; exact ⟨info, rfl, (Option.some.inj h).symm, hp⟩
    · cases h

theorem solved_apart (M : Mth K) (sc : Scene K) (inp : Tick K) (w : World K) {calls : List (Nat × Nat)} (h : calls.Pairwise fun p q => ¬ SameTwo p q) :
    (calls.filterMap (w.solved M sc inp)).Pairwise fun p q => ¬ SameTwo p q := by
  refine List.Pairwise.filterMap _ ?_ h
  intro p q hpq p' hp' q' hq' hs
  obtain ⟨i1, -, rfl, -⟩ := solved_pair hp'
  obtain ⟨i2, -, rfl, -⟩ := solved_pair hq'
  exact hpq ((SameTwo.symm (info_pair i1 p)).trans (hs.trans (info_pair i2 q)))

/-- The arbiter the solver gets for a collision: the one its own call has made, with what was kept before. -/
theorem found_active (M : Mth K) (sc : Scene K) (hper : 1 ≤ sc.persistence) (inp : Tick K) (w : World K) (h1 : OneEach w.cache)
    (hc : (w.calls M sc inp).Pairwise (fun p q => ¬ SameTwo p q)) (ab : Nat × Nat) (hab : ab ∈ (w.found M sc inp).active) :
    ∃ info, info.contacts ≠ [] ∧ ∃ h ∈ ((w.found M sc inp).swept sc).cache, (h.a, h.b) = ab ∧ h.stamp = w.stamp + 1 ∧
      h.arb = (w.begun M sc inp).updated sc inp ab info ∧ heldArb ((w.found M sc inp).swept sc).cache ab.1 ab.2 = h.arb := by
  have hact : (w.found M sc inp).active = (w.calls M sc inp).filterMap ((w.begun M sc inp).solved M sc inp) :=
    ((meets_active M sc inp (w.calls M sc inp) (w.begun M sc inp) hc).1).trans (List.nil_append _)
  rw [hact] at hab
  obtain ⟨p, hp, e⟩ := List.mem_filterMap.1 hab
  obtain ⟨info, hi, rfl, hpass⟩ := solved_pair e
  have hne : info.contacts ≠ [] := by
    unfold World.hit at hi
    have := (Option.filter_eq_some_iff.1 hi).2
    intro e; rw [e] at this; simp at this
  have hent : (w.begun M sc inp).entry M sc inp p = some ⟨(info.pair p).1, (info.pair p).2, w.stamp + 1, (w.begun M sc inp).updated sc inp (info.pair p) info⟩ := by
    unfold World.entry
    rw [hi]
    simp only [Option.map_some, if_pos hpass]
    rfl
  have hfind := meets_cache M sc inp (w.calls M sc inp) (w.begun M sc inp) hc p hp (info.pair p).1 (info.pair p).2 (info_pair info p)
  rw [hent] at hfind
  have hmem := List.mem_of_find?_eq_some hfind
  have hst : (w.found M sc inp).stamp = w.stamp + 1 := meets_stamp M sc inp _ (w.begun M sc inp)
  have hin : (⟨(info.pair p).1, (info.pair p).2, w.stamp + 1, (w.begun M sc inp).updated sc inp (info.pair p) info⟩ : Held K) ∈ ((w.found M sc inp).swept sc).cache :=
    List.mem_filterMap.2 ⟨_, hmem, keep_new sc hper _ _ hst.symm⟩
  refine ⟨info, hne, _, hin, rfl, rfl, rfl, ?_⟩
  have hf1 : OneEach (w.found M sc inp).cache := (meets_one M sc inp _ (w.begun M sc inp) (aged_one h1)).1
  have hs1 : OneEach ((w.found M sc inp).swept sc).cache := oneEach_kept hf1 _ fun h o e => ⟨(keep_frame sc _ h o e).1, (keep_frame sc _ h o e).2.1⟩
  have := find_one hs1 hin (p := info.pair p) (.inl rfl)
  unfold heldArb
  rw [this]

theorem find_mapped (c : List (Held K)) (g : Held K → Held K) (hg : ∀ h, (g h).a = h.a ∧ (g h).b = h.b) (a b : Nat) :
    (c.map g).find? (fun o => o.is a b) = (c.find? (fun o => o.is a b)).map g := by
  rw [List.find?_map]
  congr 1
  congr 1
  funext h
  simp only [Function.comp, Held.is, (hg h).1, (hg h).2]

theorem store_other (ls : List ((Nat × Nat) × Link (Arbiter K))) (p : Nat × Nat) (hn : ∀ pl ∈ ls, ¬ SameTwo pl.1 p) : ∀ c : List (Held K),
    (ls.foldl (fun c pl => c.map fun h => if h.is pl.1.1 pl.1.2 then { h with arb := pl.2.it } else h) c).find? (fun o => o.is p.1 p.2) = c.find? (fun o => o.is p.1 p.2) := by
  induction ls with
  | nil => intro c; rfl
  | cons pl ls ih =>
    intro c
    rw [List.foldl_cons, ih (fun q hq => hn q (List.mem_cons_of_mem _ hq)), find_mapped _ _ (fun h => by split <;> exact ⟨rfl, rfl⟩)]
    cases e : c.find? (fun o => o.is p.1 p.2) with
    | none => rfl
    | some h =>
      rw [Option.map_some, if_neg]
      intro hi
      have h1 : SameTwo (h.a, h.b) p := (is_iff h p.1 p.2).1 (by simpa using List.find?_some e)
      have h2 : SameTwo (h.a, h.b) pl.1 := (is_iff h _ _).1 hi
      exact hn pl List.mem_cons_self ((SameTwo.symm h2).trans h1)

theorem store_read (ls : List ((Nat × Nat) × Link (Arbiter K))) (hp : ls.Pairwise fun x y => ¬ SameTwo x.1 y.1) : ∀ c : List (Held K), ∀ pl ∈ ls, ∀ h,
    c.find? (fun o => o.is pl.1.1 pl.1.2) = some h →
    (ls.foldl (fun c pl => c.map fun h => if h.is pl.1.1 pl.1.2 then { h with arb := pl.2.it } else h) c).find? (fun o => o.is pl.1.1 pl.1.2) = some { h with arb := pl.2.it } := by
  induction ls with
  | nil => intro c pl hpl; cases hpl
  | cons q ls ih =>
    intro c pl hpl h hh
    obtain ⟨h1, h2⟩ := List.pairwise_cons.1 hp
    have hi : h.is pl.1.1 pl.1.2 = true := by simpa using List.find?_some hh
    rw [List.foldl_cons]
    rcases List.mem_cons.1 hpl with rfl | hpl
    · rw [store_other ls pl.1 (fun x hx hs => h1 x hx (SameTwo.symm hs)), find_mapped _ _ (fun h => by split <;> exact ⟨rfl, rfl⟩), hh, Option.map_some, if_pos hi]
    · refine ih h2 _ pl hpl h ?_
      rw [find_mapped _ _ (fun h => by split <;> exact ⟨rfl, rfl⟩), hh, Option.map_some, if_neg]
      intro hq
      exact h1 pl hpl ((SameTwo.symm ((is_iff h _ _).1 hq)).trans ((is_iff h _ _).1 hi))

/-- Reading back what was stored gives what was stored. -/
theorem store_solver (sc : Scene K) (f : World K) (hf : Filed f) (s : SolverState K)
    (hs : s.arbs.map (fun l => (l.ia, l.ib)) = f.active.map fun p => ((sc.figs p.1).body, (sc.figs p.2).body)) : (f.store s).solver sc = s := by
  have hlen : s.arbs.length = f.active.length := by simpa using congrArg List.length hs
  have hpw : (f.active.zip s.arbs).Pairwise fun x y => ¬ SameTwo x.1 y.1 := by
    have : ((f.active.zip s.arbs).map Prod.fst).Pairwise fun p q => ¬ SameTwo p q := by
      rw [List.map_fst_zip (by omega)]; exact hf.apart
    exact List.pairwise_map.1 this
  have key : (f.store s).active.map (fun p => (⟨(sc.figs p.1).body, (sc.figs p.2).body, heldArb (f.store s).cache p.1 p.2⟩ : Link (Arbiter K))) = s.arbs := by
    apply List.ext_getElem
    · rw [List.length_map]; exact hlen.symm
    · intro k h1 h2
      rw [List.getElem_map]
      have hk : k < f.active.length := by omega
      have hz : (f.active[k], s.arbs[k]) ∈ f.active.zip s.arbs := by
        rw [List.mem_iff_getElem]
        exact ⟨k, by rw [List.length_zip]; omega, List.getElem_zip⟩
      obtain ⟨h, hh, he⟩ := hf.held f.active[k] (List.getElem_mem _)
      have hfind := find_one hf.one hh (p := f.active[k]) (.inl he)
      have := store_read _ hpw f.cache _ hz h hfind
      have hgoal : heldArb (f.store s).cache f.active[k].1 f.active[k].2 = s.arbs[k].it := by
        unfold heldArb
        have e : (f.store s).cache.find? (fun o => o.is f.active[k].1 f.active[k].2) = some { h with arb := s.arbs[k].it } := this
        rw [e]
      have hl := congrArg (fun l => l[k]?) hs
      simp only [List.getElem?_map, List.getElem?_eq_getElem hk, List.getElem?_eq_getElem h2, Option.map_some, Option.some.injEq, Prod.mk.injEq] at hl
      show (⟨(sc.figs f.active[k].1).body, (sc.figs f.active[k].2).body, heldArb (f.store s).cache f.active[k].1 f.active[k].2⟩ : Link (Arbiter K)) = s.arbs[k]
      rw [hgoal, ← hl.1, ← hl.2]
  show (⟨s.bodies, _, s.joints⟩ : SolverState K) = s
  rw [key]

theorem found_filed (M : Mth K) (sc : Scene K) (hper : 1 ≤ sc.persistence) (inp : Tick K) (w : World K) (h1 : OneEach w.cache)
    (hc : (w.calls M sc inp).Pairwise (fun p q => ¬ SameTwo p q)) : Filed ((w.found M sc inp).swept sc) := by
  refine ⟨?_, ?_, ?_⟩
  · have hf1 : OneEach (w.found M sc inp).cache := (meets_one M sc inp _ (w.begun M sc inp) (aged_one h1)).1
    exact oneEach_kept hf1 _ fun h o e => ⟨(keep_frame sc _ h o e).1, (keep_frame sc _ h o e).2.1⟩
  · show (w.found M sc inp).active.Pairwise _
    have hact : (w.found M sc inp).active = (w.calls M sc inp).filterMap ((w.begun M sc inp).solved M sc inp) :=
      ((meets_active M sc inp (w.calls M sc inp) (w.begun M sc inp) hc).1).trans (List.nil_append _)
    rw [hact]
    exact solved_apart M sc inp _ hc
  · intro p hp
    obtain ⟨info, -, h, hh, e, -⟩ := found_active M sc hper inp w h1 hc p hp
    exact ⟨h, hh, e⟩

theorem step_solver (M : Mth K) (sc : Scene K) (hper : 1 ≤ sc.persistence) (inp : Tick K) (w : World K) (h0 : inp.dt ≠ 0) (h1 : OneEach w.cache)
    (hc : (w.calls M sc inp).Pairwise (fun p q => ¬ SameTwo p q)) :
    (w.step M sc inp).solver sc = (⟨w.bodies, [], w.joints⟩ : SolverState K).step M sc.par w.prevDT ⟨inp.dt, inp.dyn, collisions M sc inp w⟩ := by
  have hf := found_filed M sc hper inp w h1 hc
  have hst : (w.step M sc inp).solver sc =
      SolverState.solve M sc.par.inf sc.par.slop sc.par.cbias sc.par.damping sc.par.gravity inp.dyn w.prevDT inp.dt sc.par.iterations (((w.found M sc inp).swept sc).solver sc) := by
    unfold World.step
    rw [if_neg h0]
    refine store_solver sc _ hf _ ?_
    have := congrArg (List.map fun t : Nat × Nat × Unit => (t.1, t.2.1)) (solve_items (fun _ : Arbiter K => ()) (fun _ _ _ _ _ _ => rfl) (fun _ _ _ => rfl) M sc.par.inf sc.par.slop
      sc.par.cbias sc.par.damping sc.par.gravity inp.dyn w.prevDT inp.dt sc.par.iterations (((w.found M sc inp).swept sc).solver sc))
    simp only [List.map_map, Function.comp_def] at this
    rw [this]
    simp only [World.solver, List.map_map]
    rfl
  rw [hst]
  unfold SolverState.step
  rw [if_neg h0]
  obtain ⟨f1, f2, -⟩ := found_frame M sc inp w
  congr 1
  show (⟨(w.found M sc inp).bodies, _, (w.found M sc inp).joints⟩ : SolverState K) = ⟨_, _, _⟩
  rw [f1, f2]
  rfl

theorem step_filed (M : Mth K) (sc : Scene K) (hper : 1 ≤ sc.persistence) (inp : Tick K) (w : World K) (h0 : inp.dt ≠ 0) (h1 : OneEach w.cache)
    (hc : (w.calls M sc inp).Pairwise (fun p q => ¬ SameTwo p q)) : Filed (w.step M sc inp) := by
  have hf := found_filed M sc hper inp w h1 hc
  obtain ⟨-, -, k3, -⟩ := step_cache M sc inp w h0 h1
  obtain ⟨-, -, -, e4, -⟩ := step_frame M sc inp w h0
  refine ⟨oneEach_outline k3 hf.one, by rw [e4]; exact hf.apart, fun p hp => ?_⟩
  rw [e4] at hp
  obtain ⟨h, hh, he⟩ := hf.held p hp
  have : h.outline ∈ (w.step M sc inp).cache.map Held.outline := by rw [k3]; exact List.mem_map_of_mem hh
  obtain ⟨h', hh', e'⟩ := List.mem_map.1 this
  simp only [Held.outline, Prod.mk.injEq] at e'
  exact ⟨h', hh', by rw [e'.1, e'.2.1]; exact he⟩

theorem forget_filed {w : World K} (h : Filed w) (x : Nat) : Filed (w.forget x) := by
  refine ⟨h.one.filter _, h.apart.filter _, fun p hp => ?_⟩
  obtain ⟨hp1, hp2⟩ := List.mem_filter.1 hp
  obtain ⟨o, ho, e⟩ := h.held p hp1
  refine ⟨o, List.mem_filter.2 ⟨ho, ?_⟩, e⟩
  rw [← e] at hp2; exact hp2

theorem Spec.Filed.congr {w w' : World K} (h : Filed w) (h1 : w'.cache = w.cache) (h2 : w'.active = w.active) : Filed w' :=
  ⟨by rw [h1]; exact h.one, by rw [h2]; exact h.apart, by rw [h1, h2]; exact h.held⟩

theorem run1_filed_any (M : Mth K) {sc : Scene K} (hm : Boxed sc) (hper : 1 ≤ sc.persistence) {r : Roster} {w w' : World K}
    (h : Indexed sc r w) (hf : Filed w) (op : WorldOp K) (ho : Ordered sc r op) (e : w.run1 M sc op = some w') : Filed w' := by
  cases op with
  | step inp =>
    obtain rfl := Option.some.inj e
    by_cases h0 : inp.dt = 0
    · have : w.step M sc inp = w := by unfold World.step; rw [if_pos h0]
      rw [this]; exact hf
    · exact step_filed M sc hper inp w h0 hf.one (calls_distinct M hm h inp ho)
  | addDyn x => obtain ⟨t, -, rfl⟩ := Option.map_eq_some_iff.1 e; exact hf.congr rfl rfl
  | addStat x => obtain ⟨t, -, rfl⟩ := Option.map_eq_some_iff.1 e; exact hf.congr rfl rfl
  | removeDyn x => obtain ⟨t, -, rfl⟩ := Option.map_eq_some_iff.1 e; exact (forget_filed hf x).congr rfl rfl
  | removeStat x => obtain ⟨t, -, rfl⟩ := Option.map_eq_some_iff.1 e; exact (forget_filed hf x).congr rfl rfl
  | reindex x => obtain rfl := Option.some.inj e; exact hf.congr rfl rfl
  | setBody j b => obtain rfl := Option.some.inj e; exact hf.congr rfl rfl
  | setJoints js barred => obtain rfl := Option.some.inj e; exact hf.congr rfl rfl

theorem run_filed_any (M : Mth K) {sc : Scene K} (hm : Boxed sc) (hper : 1 ≤ sc.persistence) (ops : List (WorldOp K)) :
    ∀ (r : Roster) (w : World K), Indexed sc r w → Filed w → InOrder sc r ops →
    ∃ w', w.run M sc ops = some w' ∧ Indexed sc (rosterAfter r ops) w' ∧ Filed w' := by
  induction ops with
  | nil => intro r w h hf _; exact ⟨w, rfl, h, hf⟩
  | cons op ops ih =>
    intro r w h hf hl
    obtain ⟨w1, e1, h1⟩ := run1_indexed M hm h op hl.1
    obtain ⟨w2, e2, h2⟩ := ih _ _ h1 (run1_filed_any M hm hper h hf op hl.1 e1) hl.2
    exact ⟨w2, by simp only [World.run, e1, e2], h2⟩

/-! ## What a step makes of what is kept -/

namespace Spec
/-- The contacts kept for two shapes. -/
def KeptContacts (w : World K) (ab : Nat × Nat) (old : List (Contact K)) : Prop :=
  (∃ h ∈ w.cache, SameTwo (h.a, h.b) ab ∧ old = h.arb.contacts) ∨ (∀ h ∈ w.cache, ¬ SameTwo (h.a, h.b) ab) ∧ old = []

/-- Every contact starts from the impulses of the last kept contact of the same features, or from none. -/
def StartsFrom (old : List (Contact K)) (arb : Arbiter K) : Prop :=
  arb.contacts ≠ [] ∧ ∀ c ∈ arb.contacts, ((∀ o ∈ old, o.hash ≠ c.hash) → c.jnAcc = 0 ∧ c.jtAcc = 0) ∧
    ∀ o l r, old = l ++ o :: r → o.hash = c.hash → (∀ q ∈ r, q.hash ≠ c.hash) → c.jnAcc = o.jnAcc ∧ c.jtAcc = o.jtAcc

/-- Collisions between static bodies are not forgotten. -/
def Stony (sc : Scene K) (w : World K) (h : Held K) : Prop :=
  (w.bodies (sc.figs h.a).body).type sc.par.inf = .static ∧ (w.bodies (sc.figs h.b).body).type sc.par.inf = .static

/-- How a step deals with what is kept: `cols` are the collisions it solves. -/
structure Remembers (sc : Scene K) (w w' : World K) (cols : List (Link (Arbiter K))) : Prop where
  starts : ∃ start : Nat × Nat → Arbiter K, cols = w'.active.map (fun ab => ⟨(sc.figs ab.1).body, (sc.figs ab.2).body, start ab⟩) ∧
    ∀ ab ∈ w'.active, ∀ old, KeptContacts w ab old → StartsFrom old (start ab)
  known : ∀ h' ∈ w'.cache, h'.stamp = w'.stamp ∧ ((h'.a, h'.b) ∈ w'.active ∨ h'.arb.contacts = []) ∨
    ∃ h ∈ w.cache, h'.a = h.a ∧ h'.b = h.b ∧ h'.stamp = h.stamp ∧ h'.arb.contacts = h.arb.contacts
  young : ∀ h' ∈ w'.cache, w'.stamp < h'.stamp + sc.persistence ∨ Stony sc w' h'
  kept : ∀ h ∈ w.cache, w'.stamp < h.stamp + sc.persistence ∨ Stony sc w' h → ∃ h' ∈ w'.cache, SameTwo (h'.a, h'.b) (h.a, h.b)
end Spec

theorem kept_held {w : World K} (h1 : OneEach w.cache) {ab : Nat × Nat} {old : List (Contact K)} (h : KeptContacts w ab old) : old = (heldArb w.cache ab.1 ab.2).contacts := by
  unfold heldArb
  rcases h with ⟨o, ho, hs, rfl⟩ | ⟨hn, rfl⟩
  · rw [find_one h1 ho hs]
  · have : w.cache.find? (fun o => o.is ab.1 ab.2) = none := by
      rw [List.find?_eq_none]
      intro o ho hi
      exact hn o ho ((is_iff o _ _).1 hi)
    rw [this]; rfl

theorem aged_contacts (w : World K) (a b : Nat) : (heldArb w.aged a b).contacts = (heldArb w.cache a b).contacts := by
  unfold heldArb
  rw [find_aged]
  cases w.cache.find? (fun o => o.is a b) with
  | none => rfl
  | some h =>
    simp only [Option.map_some]
    split <;> rfl

theorem updated_starts (sc : Scene K) (inp : Tick K) (w : World K) (ab : Nat × Nat) (info : Info K) (hne : info.contacts ≠ []) :
    StartsFrom (heldArb w.cache ab.1 ab.2).contacts (w.updated sc inp ab info) := by
  have key : StartsFrom (heldArb w.cache ab.1 ab.2).contacts ((heldArb w.cache ab.1 ab.2).update (info.contacts.map Pushed.contact) info.n (w.bodies (sc.figs ab.1).body).p
      (w.bodies (sc.figs ab.2).body).p (sc.figs ab.1).surface (sc.figs ab.2).surface (sc.swap ab.1 ab.2)) := by
    have W := C64_warm_start (heldArb w.cache ab.1 ab.2) (info.contacts.map Pushed.contact) info.n (w.bodies (sc.figs ab.1).body).p
      (w.bodies (sc.figs ab.2).body).p (sc.figs ab.1).surface (sc.figs ab.2).surface (sc.swap ab.1 ab.2)
    refine ⟨?_, fun c hc => ?_⟩
    · intro e
      have := W.1
      rw [e] at this
      simp only [List.length_nil, List.length_map] at this
      exact hne (List.length_eq_zero_iff.1 this.symm)
    · obtain ⟨i, hi, rfl⟩ := List.getElem_of_mem hc
      obtain ⟨g1, -, -, g4, g5⟩ := W.2 i hi (by rw [← W.1]; exact hi)
      rw [g1]
      exact ⟨g4, g5⟩
  unfold World.updated
  dsimp only
  split
  · exact key
  · exact key

theorem store_mem (ls : List ((Nat × Nat) × Link (Arbiter K))) : ∀ c : List (Held K),
    ∀ h' ∈ ls.foldl (fun c pl => c.map fun h => if h.is pl.1.1 pl.1.2 then { h with arb := pl.2.it } else h) c,
      ∃ h ∈ c, h'.a = h.a ∧ h'.b = h.b ∧ h'.stamp = h.stamp ∧ (h' = h ∨ ∃ pl ∈ ls, h.is pl.1.1 pl.1.2 = true) := by
  induction ls with
  | nil => intro c h' hh'; exact ⟨h', hh', rfl, rfl, rfl, .inl rfl⟩
  | cons pl ls ih =>
    intro c h' hh'
    rw [List.foldl_cons] at hh'
    obtain ⟨h1, hh1, e1, e2, e3, e4⟩ := ih _ h' hh'
    obtain ⟨h0, hh0, rfl⟩ := List.mem_map.1 hh1
    by_cases hi : h0.is pl.1.1 pl.1.2 = true
    · rw [if_pos hi] at e1 e2 e3
      exact ⟨h0, hh0, e1, e2, e3, .inr ⟨pl, List.mem_cons_self, hi⟩⟩
    · rw [if_neg hi] at e1 e2 e3 e4
      refine ⟨h0, hh0, e1, e2, e3, ?_⟩
      rcases e4 with e4 | ⟨q, hq, hi'⟩
      · exact .inl e4
      · exact .inr ⟨q, List.mem_cons_of_mem _ hq, hi'⟩

theorem putHeld_keeps (h : Held K) (c : List (Held K)) (o : Held K) (ho : o ∈ c) : ∃ o' ∈ putHeld h c, SameTwo (o'.a, o'.b) (o.a, o.b) ∧ (o'.stamp = o.stamp ∨ o' = h) := by
  unfold putHeld
  split
  · refine ⟨if o.is h.a h.b then h else o, List.mem_map_of_mem ho, ?_⟩
    split
    · rename_i hi; exact ⟨SameTwo.symm ((is_iff o _ _).1 hi), .inr rfl⟩
    · exact ⟨.inl rfl, .inl rfl⟩
  · exact ⟨o, List.mem_cons_of_mem _ ho, .inl rfl, .inl rfl⟩

theorem meets_keep (M : Mth K) (sc : Scene K) (inp : Tick K) (calls : List (Nat × Nat)) : ∀ w : World K, ∀ o ∈ w.cache,
    ∃ o' ∈ (calls.foldl (World.meet M sc inp) w).cache, SameTwo (o'.a, o'.b) (o.a, o.b) ∧ (o'.stamp = o.stamp ∨ o'.stamp = w.stamp) := by
  induction calls with
  | nil => intro w o ho; exact ⟨o, ho, .inl rfl, .inl rfl⟩
  | cons p calls ih =>
    intro w o ho
    rw [List.foldl_cons]
    have : ∃ o' ∈ (w.meet M sc inp p).cache, SameTwo (o'.a, o'.b) (o.a, o.b) ∧ (o'.stamp = o.stamp ∨ o'.stamp = w.stamp) := by
      rw [meet_cache]
      cases e : w.entry M sc inp p with
      | none => exact ⟨o, ho, .inl rfl, .inl rfl⟩
      | some h =>
        have hst : h.stamp = w.stamp := by
          unfold World.entry at e
          obtain ⟨info, -, rfl⟩ := Option.map_eq_some_iff.1 e; rfl
        obtain ⟨o', ho', hs, ht⟩ := putHeld_keeps h w.cache o ho
        refine ⟨o', ho', hs, ?_⟩
        rcases ht with ht | rfl
        · exact .inl ht
        · exact .inr hst
    obtain ⟨o1, ho1, hs1, ht1⟩ := this
    obtain ⟨o2, ho2, hs2, ht2⟩ := ih _ o1 ho1
    rw [meet_stamp] at ht2
    refine ⟨o2, ho2, hs2.trans hs1, ?_⟩
    rcases ht2 with ht2 | ht2
    · rw [ht2]; exact ht1
    · exact .inr ht2

theorem keep_young (sc : Scene K) (w : World K) (h : Held K) (hy : w.stamp < h.stamp + sc.persistence ∨ Stony sc w h) (hper : 1 ≤ sc.persistence) : ∃ o, w.keep sc h = some o := by
  unfold World.keep
  split
  · exact ⟨h, rfl⟩
  · rename_i hs
    rcases hy with hy | hy
    · dsimp only
      rw [if_neg (c := _ ≥ sc.persistence) (by omega)]
      exact ⟨_, rfl⟩
    · exact absurd hy hs

theorem keep_age (sc : Scene K) (w : World K) (h o : Held K) (e : w.keep sc h = some o) (hper : 1 ≤ sc.persistence) : w.stamp < h.stamp + sc.persistence ∨ Stony sc w h := by
  unfold World.keep at e
  split at e
  · rename_i hs; exact .inr hs
  · dsimp only at e
    split at e
    · cases e
    · exact .inl (by omega)

theorem stony_congr (sc : Scene K) {w w' : World K} {h h' : Held K} (ht : ∀ k, (w'.bodies k).type sc.par.inf = (w.bodies k).type sc.par.inf)
    (hs : SameTwo (h'.a, h'.b) (h.a, h.b)) : Stony sc w' h' ↔ Stony sc w h := by
  unfold Stony
  rw [ht, ht]
  rcases hs with hs | hs
  · have e1 : h'.a = h.a := congrArg Prod.fst hs
    have e2 : h'.b = h.b := congrArg Prod.snd hs
    rw [e1, e2]
  · have e1 : h'.a = h.b := congrArg Prod.fst hs
    have e2 : h'.b = h.a := congrArg Prod.snd hs
    rw [e1, e2]; exact and_comm

theorem step_remembers (M : Mth K) (sc : Scene K) (hper : 1 ≤ sc.persistence) (inp : Tick K) (w : World K) (h0 : inp.dt ≠ 0) (h1 : OneEach w.cache)
    (hc : (w.calls M sc inp).Pairwise (fun p q => ¬ SameTwo p q)) : Remembers sc w (w.step M sc inp) (collisions M sc inp w) := by
  obtain ⟨k1, k2, k3, k4, k5, k6⟩ := step_cache M sc inp w h0 h1
  obtain ⟨-, -, -, e4, e5⟩ := step_frame M sc inp w h0
  have htype : ∀ k, ((w.step M sc inp).bodies k).type sc.par.inf = ((w.found M sc inp).bodies k).type sc.par.inf := by
    intro k; rw [k6]; exact SamePlace.type (e5 k) sc.par.inf
  have outl : ∀ h ∈ ((w.found M sc inp).swept sc).cache, ∃ h' ∈ (w.step M sc inp).cache, h'.a = h.a ∧ h'.b = h.b ∧ h'.stamp = h.stamp := by
    intro h hh
    have : h.outline ∈ (w.step M sc inp).cache.map Held.outline := by rw [k3]; exact List.mem_map_of_mem hh
    obtain ⟨h', hh', e'⟩ := List.mem_map.1 this
    simp only [Held.outline, Prod.mk.injEq] at e'
    exact ⟨h', hh', e'.1, e'.2.1, e'.2.2.1⟩
  have outl' : ∀ h' ∈ (w.step M sc inp).cache, ∃ h ∈ ((w.found M sc inp).swept sc).cache, h'.a = h.a ∧ h'.b = h.b ∧ h'.stamp = h.stamp ∧
      (h' = h ∨ ∃ p ∈ (w.found M sc inp).active, SameTwo (h.a, h.b) p) := by
    intro h' hh'
    unfold World.step at hh'
    rw [if_neg h0] at hh'
    obtain ⟨h, hh, g1, g2, g3, g4⟩ := store_mem _ _ h' hh'
    refine ⟨h, hh, g1, g2, g3, ?_⟩
    rcases g4 with g4 | ⟨pl, hpl, hi⟩
    · exact .inl g4
    · exact .inr ⟨pl.1, (List.of_mem_zip hpl).1, (is_iff h _ _).1 hi⟩
  refine ⟨⟨fun ab => heldArb ((w.found M sc inp).swept sc).cache ab.1 ab.2, ?_, ?_⟩, ?_, ?_, ?_⟩
  · rw [e4]; rfl
  · intro ab hab old hold
    rw [e4] at hab
    obtain ⟨info, hne, h, hh, e1, e2, e3, e⟩ := found_active M sc hper inp w h1 hc ab hab
    dsimp only
    rw [e, e3, kept_held h1 hold, ← aged_contacts]
    exact updated_starts sc inp (w.begun M sc inp) ab info hne
  · intro h' hh'
    obtain ⟨h, hh, g1, g2, g3, g4⟩ := outl' h' hh'
    rcases g4 with rfl | ⟨p, hp, hs⟩
    · obtain ⟨h2, hh2, e⟩ := List.mem_filterMap.1 hh
      obtain ⟨f1, f2, f3, -⟩ := keep_frame sc _ h2 h' e
      obtain ⟨f4, -⟩ := keep_arb sc _ h2 h' e
      have cases2 : (h2.stamp = w.stamp + 1 ∧ ((h2.a, h2.b) ∈ (w.found M sc inp).active ∨ h2.arb.contacts = [])) ∨ h2 ∈ (w.begun M sc inp).cache := by
        rcases (meets_one M sc inp (w.calls M sc inp) (w.begun M sc inp) (aged_one h1)).2 h2 hh2 with hb | ⟨hst, p, hp, hs⟩
        · exact .inr hb
        · have hfind := meets_cache M sc inp (w.calls M sc inp) (w.begun M sc inp) hc p hp h2.a h2.b hs
          have hone := find_one k1 hh2 (p := (h2.a, h2.b)) (.inl rfl)
          have hfind' : (w.found M sc inp).cache.find? (fun o => o.is h2.a h2.b) = some h2 := hone
          unfold World.found at hfind'
          rw [hfind'] at hfind
          cases he : (w.begun M sc inp).entry M sc inp p with
          | none =>
            rw [he] at hfind
            exact .inr (List.mem_of_find?_eq_some hfind.symm)
          | some hd =>
            rw [he] at hfind
            obtain rfl := Option.some.inj hfind
            refine .inl ⟨hst, ?_⟩
            unfold World.entry at he
            obtain ⟨info, hi, rfl⟩ := Option.map_eq_some_iff.1 he
            by_cases hpass : (w.begun M sc inp).passes sc inp (info.pair p) ((w.begun M sc inp).updated sc inp (info.pair p) info)
            · left
              have hact : (w.found M sc inp).active = (w.calls M sc inp).filterMap ((w.begun M sc inp).solved M sc inp) :=
                ((meets_active M sc inp (w.calls M sc inp) (w.begun M sc inp) hc).1).trans (List.nil_append _)
              rw [hact]
              refine List.mem_filterMap.2 ⟨p, hp, ?_⟩
              unfold World.solved
              rw [hi]
              dsimp only
              rw [if_pos hpass]
            · right
              dsimp only
              rw [if_neg hpass]; rfl
      rcases cases2 with ⟨c1, c2⟩ | hb
      · left
        rw [f3, c1, k4, f4, f1, f2, e4]
        exact ⟨rfl, c2⟩
      · right
        have hb' : h2 ∈ w.aged := hb
        unfold World.aged at hb'
        obtain ⟨h3, hh3, rfl⟩ := List.mem_map.1 hb'
        refine ⟨h3, hh3, ?_⟩
        rw [f1, f2, f3, f4]
        split <;> exact ⟨rfl, rfl, rfl, rfl⟩
    · obtain ⟨info, -, h2, hh2, e1, e2, -⟩ := found_active M sc hper inp w h1 hc p hp
      have : h = h2 := by
        have a1 := find_one k2 hh (p := p) hs
        have a2 := find_one k2 hh2 (p := p) (.inl e1)
        rw [a1] at a2; exact Option.some.inj a2
      subst this
      left
      rw [g3, e2, k4, g1, g2, e1, e4]
      exact ⟨rfl, .inl hp⟩
  · intro h' hh'
    obtain ⟨h, hh, g1, g2, g3, -⟩ := outl' h' hh'
    obtain ⟨h2, hh2, e⟩ := List.mem_filterMap.1 hh
    obtain ⟨f1, f2, f3, -⟩ := keep_frame sc _ h2 h e
    have := keep_age sc _ h2 h e hper
    rw [k4, g3, f3, ← k5]
    rcases this with t | t
    · exact .inl t
    · exact .inr ((stony_congr sc htype (.inl (by rw [g1, g2, f1, f2]))).2 t)
  · intro h hh hy
    have hb : ∃ hA ∈ (w.begun M sc inp).cache, hA.a = h.a ∧ hA.b = h.b ∧ hA.stamp = h.stamp := by
      refine ⟨if w.active.contains (h.a, h.b) then { h with arb := { h.arb with state := .normal } } else h, List.mem_map_of_mem hh, ?_⟩
      split <;> exact ⟨rfl, rfl, rfl⟩
    obtain ⟨hA, hhA, a1, a2, a3⟩ := hb
    obtain ⟨o, ho, hs, hst⟩ := meets_keep M sc inp (w.calls M sc inp) (w.begun M sc inp) hA hhA
    have hbst : (w.begun M sc inp).stamp = w.stamp + 1 := rfl
    rw [a1, a2] at hs
    rw [k4] at hy
    have hyo : (w.found M sc inp).stamp < o.stamp + sc.persistence ∨ Stony sc (w.found M sc inp) o := by
      rw [k5]
      rcases hst with hst | hst
      · rcases hy with hy | hy
        · left; rw [hst, a3]; exact hy
        · right; exact (stony_congr sc (w := w.found M sc inp) (w' := w.step M sc inp) htype (SameTwo.symm hs)).1 hy
      · left; rw [hst, hbst]; omega
    obtain ⟨o2, e⟩ := keep_young sc _ o hyo hper
    obtain ⟨f1, f2, -⟩ := keep_frame sc _ o o2 e
    obtain ⟨h', hh', b1, b2, -⟩ := outl o2 (List.mem_filterMap.2 ⟨o, ho, e⟩)
    refine ⟨h', hh', ?_⟩
    rw [b1, b2, f1, f2]; exact hs

/-- **C116.** After any history, a step starts every contact from the impulses the solver left at the contact of the same features the last time the two shapes
touched, if that is remembered, and from none otherwise; and what it remembers of every collision is what its solver has left. What is remembered is kept until
`CollisionPersistence` steps have passed without contact, and no longer, except between static bodies. This holds in any arithmetic that rounds. -/
theorem C116_memory (M : Mth K) {sc : Scene K} (hm : Boxed sc) (hper : 1 ≤ sc.persistence) (bodies : Nat → Body K)
    (shapes : Nat → CShape K) (hs : ∀ i, (shapes i).bb.L ≤ (shapes i).bb.R ∧ (shapes i).bb.B ≤ (shapes i).bb.T)
    (ops : List (WorldOp K)) (hl : InOrder sc (fun _ => none) ops) :
    ∃ w, (World.init bodies shapes).run M sc ops = some w ∧ Filed w ∧
      ∀ inp : Tick K, inp.dt ≠ 0 → Ordered sc (rosterAfter (fun _ => none) ops) (.step inp) →
        Remembers sc w (w.step M sc inp) (collisions M sc inp w) ∧
        (w.step M sc inp).solver sc = (⟨w.bodies, [], w.joints⟩ : SolverState K).step M sc.par w.prevDT ⟨inp.dt, inp.dyn, collisions M sc inp w⟩ := by
  obtain ⟨w, e, hu, hf⟩ := run_filed_any M hm hper ops _ _ (init_indexed sc bodies shapes hs)
    ⟨List.Pairwise.nil, List.Pairwise.nil, (fun p hp => by cases hp)⟩ hl
  refine ⟨w, e, hf, fun inp h0 ho => ?_⟩
  have hc := calls_distinct M hm hu inp ho
  exact ⟨step_remembers M sc hper inp w h0 hf.one hc, step_solver M sc hper inp w h0 hf.one hc⟩

end Any

/-! ## The same in exact arithmetic, with the bodies placed rigidly -/
section Exact
variable {K : Type} [Field K] [LinearOrder K] [IsStrictOrderedRing K]

theorem Spec.WLegal.inOrder {sc : Scene K} (ops : List (WorldOp K)) : ∀ {r : Roster}, WLegal sc r ops → InOrder sc r ops := by
  induction ops with
  | nil => intro r _; trivial
  | cons op ops ih => intro r h; exact ⟨h.1.ordered, ih h.2⟩

theorem calls_apart {M : Mth K} (hM : M.Lawful) {sc : Scene K} {fig : Nat → Figure K} (hm : Made M sc fig) {r : Roster} {w : World K} (h : Upright sc r w)
    (inp : Tick K) (ho : WOk sc r (.step inp)) : (w.calls M sc inp).Pairwise (fun p q => ¬ SameTwo p q) :=
  calls_distinct M hm.boxed h.indexed inp ho

theorem run_filed {M : Mth K} (hM : M.Lawful) {sc : Scene K} {fig : Nat → Figure K} (hm : Made M sc fig) (hper : 1 ≤ sc.persistence) (ops : List (WorldOp K))
    (r : Roster) (w : World K) (h : Upright sc r w) (hf : Filed w) (hl : WLegal sc r ops) :
    ∃ w', w.run M sc ops = some w' ∧ Upright sc (rosterAfter r ops) w' ∧ Filed w' := by
  obtain ⟨w1, e1, h1⟩ := run_upright hM hm ops r w h hl
  obtain ⟨w2, e2, -, h2⟩ := run_filed_any M hm.boxed hper ops r w h.indexed hf (Spec.WLegal.inOrder ops hl)
  rw [e1, Option.some.injEq] at e2
  subst e2
  exact ⟨w1, e1, h1, h2⟩
end Exact

/-! ## Examples -/

/-- The scene of `exAbove_hyps` meets the hypotheses of `C116_memory`. -/
example : Made realMth exAbove exAboveFig ∧ 1 ≤ exAbove.persistence ∧ (∀ k, Rigid (exAboveBodies k).tr) ∧
    WLegal exAbove (fun _ => none) (exAboveDo ++ [.step ⟨1/2, [0, 1], [1, 0], fun _ _ => true, fun _ _ => true⟩]) := by
  obtain ⟨h1, h2, h3, -⟩ := exAbove_hyps
  exact ⟨h1, by simp [exAbove], h2, h3⟩

/-- Three balls with friction: after two steps the first two have met, and a push is remembered. -/
example : (∀ i, 0 ≤ (exBalls3.figs i).surface.friction) ∧
    ((exWorld.run exMth exBalls3 exDo).map fun w => w.cache.map fun h => (h.a, h.b, h.stamp, h.arb.contacts.map fun c => decide (0 < c.jnAcc))) = some [(0, 1, 2, [true])] := by
  refine ⟨fun i => ?_, by decide +kernel⟩
  show (0 : ℚ) ≤ 1/2
  norm_num

end Cm
