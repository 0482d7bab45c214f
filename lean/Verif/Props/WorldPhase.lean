import Verif.Props.WorldFound
/-! # C114: how collisions begin and end, in the whole simulation -/
set_option linter.unusedSectionVars false
set_option linter.unusedSimpArgs false
set_option linter.unusedVariables false

namespace Cm
open Spec BBTree
section Exact
variable {K : Type} [Field K] [LinearOrder K] [IsStrictOrderedRing K]

namespace Spec
/-- Where two shapes stand: apart, in a collision, or in a collision that was refused when it began. -/
inductive Terms where
  | apart | together | refused
deriving DecidableEq

abbrev TermsOf := Nat → Nat → Terms

/-- The next phase of two shapes. -/
def Terms.next (colliding begins : Bool) : Terms → Terms
  | .apart => if colliding then (if begins then .together else .refused) else .apart
  | x => if colliding then x else .apart

open Classical in
/-- What an operation makes of the phases; `w'` is the world after it. -/
noncomputable def phasesNext (sc : Scene K) (fig : Nat → Figure K) (r : Roster) (w' : World K) (ph : TermsOf) : WorldOp K → TermsOf
  | .step inp => if inp.dt = 0 then ph else fun i j => (ph i j).next (decide (Colliding sc fig r w' i j)) (inp.begins i j)
  | .removeDyn x => fun i j => if i = x ∨ j = x then .apart else ph i j
  | .removeStat x => fun i j => if i = x ∨ j = x then .apart else ph i j
  | _ => ph

/-- The phases after a history. -/
noncomputable def phasesAfter (M : Mth K) (sc : Scene K) (fig : Nat → Figure K) : Roster → World K → TermsOf → List (WorldOp K) → TermsOf
  | _, _, ph, [] => ph
  | r, w, ph, op :: ops => match w.run1 M sc op with
    | none => ph
    | some w' => phasesAfter M sc fig (rosterStep r op) w' (phasesNext sc fig r w' ph op) ops

/-- Of any two shapes that can meet one is a ball and the other a ball or a rod, or the searches for closest points settle. -/
def Finds (M : Mth K) (sc : Scene K) (fig : Nat → Figure K) (r : Roster) (inp : Tick K) (w : World K) : Prop :=
  AllEasy sc fig r ∨ 0 < sc.tiny ∧ Searched M sc fig inp w

/-- Moving shapes are on bodies that are not static; `BeginFunc` does not depend on which shape comes first; collisions are found. -/
def FineOp (M : Mth K) (sc : Scene K) (fig : Nat → Figure K) (r : Roster) (w : World K) : WorldOp K → Prop
  | .step inp => (∀ i j, inp.begins i j = inp.begins j i) ∧ Finds M sc fig r inp w
  | .addDyn i => (w.bodies (sc.figs i).body).type sc.par.inf ≠ .static
  | .setBody k b => (∃ i, r i = some true ∧ (sc.figs i).body = k) → b.type sc.par.inf ≠ .static
  | _ => True

def Fine (M : Mth K) (sc : Scene K) (fig : Nat → Figure K) : Roster → World K → List (WorldOp K) → Prop
  | _, _, [] => True
  | r, w, op :: ops => FineOp M sc fig r w op ∧ ∀ w', w.run1 M sc op = some w' → Fine M sc fig (rosterStep r op) w' ops
end Spec

theorem finds_detects {M : Mth K} (hM : M.Lawful) {sc : Scene K} {fig : Nat → Figure K} (hm : Made M sc fig) {r : Roster} {w : World K} (h : Upright sc r w)
    (inp : Tick K) (ho : WOk sc r (.step inp)) (hf : Finds M sc fig r inp w) : Detects M sc fig r inp w := by
  obtain ⟨hup, hcur⟩ := begun_upright hM hm h inp ho
  intro p hp h1 h2 h3 h4 h5
  rcases hf with he | ⟨hti, B, hB1, hB2, hS⟩
  · rw [hcur _ h1, hcur _ h2, (hm _).2, (hm _).2]
    exact easy_pair hM sc.par.inf sc.tiny (hup.rigid _) (hup.rigid _) (hm _).1 (hm _).1 (he _ _ h1 h2 h3 h4) _ _ _
  · obtain ⟨w1, w2, h6⟩ := hS p hp _ _ rfl rfl h5
    rw [hcur _ h1, hcur _ h2, (hm _).2, (hm _).2] at *
    exact C102_pair_partial hM sc.par.inf sc.tiny B hti hB1 hB2 (hup.rigid _) (hup.rigid _) (hm _).1 (hm _).1 _ _ w1 w2 _ h6

/-! ## The kept arbiters, in outline -/

end Exact

section Any
variable {K : Type} [Zero K] [One K] [Add K] [Sub K] [Mul K] [Div K] [Neg K] [NatCast K] [LinearOrder K] [Spec.Rounded K]

/-- The part of an arbiter the phases depend on. -/
def Held.outline (h : Held K) : Nat × Nat × Nat × ArbState := (h.a, h.b, h.stamp, h.arb.state)

/-- The outline of the arbiter of two shapes. -/
def World.look (w : World K) (ab : Nat × Nat) : Option (Nat × Nat × Nat × ArbState) := (w.cache.find? (fun o => o.is ab.1 ab.2)).map Held.outline

theorem stateOf_look (w : World K) (ab : Nat × Nat) : stateOf w ab = match w.look ab with
    | none => .first
    | some o => if (o.1, o.2.1) ∈ w.active then .normal else o.2.2.2 := by
  unfold stateOf World.look
  cases w.cache.find? (fun o => o.is ab.1 ab.2) <;> rfl

theorem find_outline (c : List (Held K)) (a b : Nat) : (c.find? (fun o => o.is a b)).map Held.outline =
    (c.map Held.outline).find? (fun o => (a == o.1 && b == o.2.1) || (b == o.1 && a == o.2.1)) := by
  rw [List.find?_map]; rfl

theorem look_congr {w w' : World K} (h : w'.cache.map Held.outline = w.cache.map Held.outline) (ab : Nat × Nat) : w'.look ab = w.look ab := by
  unfold World.look
  rw [find_outline, find_outline, h]

theorem Spec.SameTwo.trans {p q s : Nat × Nat} (h : SameTwo p q) (h' : SameTwo q s) : SameTwo p s := by
  obtain ⟨p1, p2⟩ := p; obtain ⟨q1, q2⟩ := q; obtain ⟨s1, s2⟩ := s
  simp only [SameTwo, Prod.mk.injEq] at h h' ⊢; omega

theorem is_congr {p q : Nat × Nat} (h : SameTwo p q) (o : Held K) : o.is p.1 p.2 = o.is q.1 q.2 := by
  rcases h with rfl | rfl
  · rfl
  · exact is_swap o _ _

theorem look_same {p q : Nat × Nat} (h : SameTwo p q) (w : World K) : w.look p = w.look q := by
  unfold World.look
  simp only [is_congr (K := K) h]

/-! ## The solver does not touch the outlines -/

theorem linkLoop_items {α β : Type} (f : α → Body K → Body K → Body K × Body K × α) (φ : α → β) (hf : ∀ x a b, φ (f x a b).2.2 = φ x) (ls : List (Link α)) :
    ∀ bs, (linkLoop f ls bs).2.map (fun l => φ l.it) = ls.map (fun l => φ l.it) := by
  induction ls with
  | nil => intro bs; rfl
  | cons l ls ih => intro bs; simp only [linkLoop, List.map_cons, hf, ih]

theorem solve_states (M : Mth K) (inf slop cbias damping : K) (g : V2 K) (dyn : List Nat) (prevDT dt : K) (n : Nat) (s : SolverState K) :
    (s.solve M inf slop cbias damping g dyn prevDT dt n).arbs.map (fun l => l.it.state) = s.arbs.map (fun l => l.it.state) := by
  have h1 : (s.preStep M inf slop cbias dt).arbs.map (fun l => l.it.state) = s.arbs.map (fun l => l.it.state) :=
    linkLoop_items _ (fun a : Arbiter K => a.state) (fun x a b => rfl) _ _
  unfold SolverState.solve
  generalize s.preStep M inf slop cbias dt = s1 at h1 ⊢
  have h2 : ((s1.velocities M inf damping g dyn dt).cached prevDT dt).arbs.map (fun l => l.it.state) = s1.arbs.map (fun l => l.it.state) :=
    linkLoop_items _ (fun a : Arbiter K => a.state) (fun x a b => rfl) _ _
  generalize (s1.velocities M inf damping g dyn dt).cached prevDT dt = s3 at h2 ⊢
  rw [← h1, ← h2]
  clear h1 h2
  induction n generalizing s3 with
  | zero => rfl
  | succ n ih =>
    rw [Function.iterate_succ_apply, ih]
    exact linkLoop_items _ (fun a : Arbiter K => a.state) (fun x a b => rfl) _ _

namespace Spec
/-- No two arbiters for the same two shapes. -/
def OneEach (c : List (Held K)) : Prop := c.Pairwise fun h h' => ¬ SameTwo (h.a, h.b) (h'.a, h'.b)
end Spec

theorem find_one {c : List (Held K)} (h1 : OneEach c) {h : Held K} (hh : h ∈ c) {p : Nat × Nat} (hp : SameTwo (h.a, h.b) p) :
    c.find? (fun o => o.is p.1 p.2) = some h := by
  induction c with
  | nil => cases hh
  | cons o c ih =>
    obtain ⟨g1, g2⟩ := List.pairwise_cons.1 h1
    rw [List.find?_cons]
    rcases List.mem_cons.1 hh with rfl | hc
    · rw [(is_iff h p.1 p.2).2 hp]
    · have : o.is p.1 p.2 = false := by
        rw [Bool.eq_false_iff]
        intro ho
        rw [is_iff] at ho
        exact g1 h hc (ho.trans (SameTwo.symm hp))
      rw [this]
      exact ih g2 hc

theorem oneEach_outline {c c' : List (Held K)} (h : c'.map Held.outline = c.map Held.outline) (h1 : OneEach c) : OneEach c' := by
  have key : ∀ c : List (Held K), OneEach c ↔ (c.map Held.outline).Pairwise fun o o' => ¬ SameTwo (o.1, o.2.1) (o'.1, o'.2.1) := by
    intro c; rw [List.pairwise_map]; rfl
  rw [key] at h1 ⊢
  rw [h]; exact h1

theorem store_outline (ls : List ((Nat × Nat) × Link (Arbiter K))) : ∀ c : List (Held K),
    (∀ pl ∈ ls, ∀ h ∈ c, h.is pl.1.1 pl.1.2 = true → h.arb.state = pl.2.it.state) →
    (ls.foldl (fun c pl => c.map fun h => if h.is pl.1.1 pl.1.2 then { h with arb := pl.2.it } else h) c).map Held.outline = c.map Held.outline := by
  induction ls with
  | nil => intro c _; rfl
  | cons pl ls ih =>
    intro c hc
    have hg : ∀ h ∈ c, Held.outline (if h.is pl.1.1 pl.1.2 then { h with arb := pl.2.it } else h) = h.outline := by
      intro h hh
      split
      · rename_i hi
        simp only [Held.outline, hc pl List.mem_cons_self h hh hi]
      · rfl
    rw [List.foldl_cons, ih]
    · rw [List.map_map]
      exact List.map_congr_left hg
    · intro pl' hpl' h' hh' hi
      obtain ⟨h, hh, rfl⟩ := List.mem_map.1 hh'
      have e := hg h hh
      simp only [Held.outline, Prod.mk.injEq] at e
      rw [e.2.2.2]
      refine hc pl' (List.mem_cons_of_mem _ hpl') h hh ?_
      rw [is_iff] at hi ⊢
      rw [e.1, e.2.1] at hi; exact hi

theorem solved_outline (M : Mth K) (sc : Scene K) (inp : Tick K) (w : World K) (f : World K) (h1 : OneEach f.cache) (prevDT : K) :
    (f.store (SolverState.solve M sc.par.inf sc.par.slop sc.par.cbias sc.par.damping sc.par.gravity inp.dyn prevDT inp.dt sc.par.iterations (f.solver sc))).cache.map Held.outline =
      f.cache.map Held.outline := by
  apply store_outline
  intro pl hpl h hh hi
  have hst := solve_states M sc.par.inf sc.par.slop sc.par.cbias sc.par.damping sc.par.gravity inp.dyn prevDT inp.dt sc.par.iterations (f.solver sc)
  generalize (f.solver sc).solve M sc.par.inf sc.par.slop sc.par.cbias sc.par.damping sc.par.gravity inp.dyn prevDT inp.dt sc.par.iterations = s at hst hpl
  have hin : (f.solver sc).arbs.map (fun l => l.it.state) = f.active.map fun p => (heldArb f.cache p.1 p.2).state := by
    simp only [World.solver, List.map_map]; rfl
  rw [hin] at hst
  obtain ⟨k, hk, e⟩ := List.mem_iff_getElem.1 hpl
  rw [List.getElem_zip] at e
  subst e
  simp only [List.length_zip, lt_min_iff] at hk
  have := congrArg (fun l => l[k]?) hst
  simp only [List.getElem?_map, List.getElem?_eq_getElem hk.1, List.getElem?_eq_getElem hk.2, Option.map_some, Option.some.injEq] at this
  rw [this]
  rw [is_iff] at hi
  unfold heldArb
  rw [find_one h1 hh hi]

/-! ## The collisions found and the kept arbiters -/

/-- The arbiter put into the cache for a pair reported. -/
def World.entry (M : Mth K) (sc : Scene K) (inp : Tick K) (w : World K) (p : Nat × Nat) : Option (Held K) :=
  (w.hit M sc p).map fun info =>
    ⟨(info.pair p).1, (info.pair p).2, w.stamp,
      if w.passes sc inp (info.pair p) (w.updated sc inp (info.pair p) info) then w.updated sc inp (info.pair p) info else (w.updated sc inp (info.pair p) info).unused⟩

theorem meet_cache (M : Mth K) (sc : Scene K) (inp : Tick K) (w : World K) (p : Nat × Nat) :
    (w.meet M sc inp p).cache = match w.entry M sc inp p with
      | none => w.cache
      | some h => putHeld h w.cache := by
  obtain ⟨ids', -, e⟩ := meet_eq M sc inp w p
  rw [e]
  unfold World.entry
  cases w.hit M sc p with
  | none => rfl
  | some info =>
    have h1 : ({ w with ids := ids' } : World K).updated sc inp (info.pair p) info = w.updated sc inp (info.pair p) info := rfl
    have h2 : ∀ arb, ({ w with ids := ids' } : World K).passes sc inp (info.pair p) arb ↔ w.passes sc inp (info.pair p) arb := fun _ => Iff.rfl
    dsimp only [World.collided, Option.map_some]
    rw [h1]
    by_cases hp : w.passes sc inp (info.pair p) (w.updated sc inp (info.pair p) info)
    · rw [if_pos ((h2 _).2 hp), if_pos hp]
    · rw [if_neg (fun h => hp ((h2 _).1 h)), if_neg hp]

theorem AlikeFor.entry {w w' : World K} {p : Nat × Nat} (h : AlikeFor w w' p) (hs : w'.stamp = w.stamp) (M : Mth K) (sc : Scene K) (inp : Tick K) :
    w'.entry M sc inp p = w.entry M sc inp p := by
  unfold World.entry
  rw [h.answer]
  cases w.hit M sc p with
  | none => rfl
  | some info =>
    simp only [Option.map_some, h.updated, hs]
    simp only [World.passes, h.bodies]

theorem entry_pair (M : Mth K) (sc : Scene K) (inp : Tick K) (w : World K) (p : Nat × Nat) (h : Held K) (he : w.entry M sc inp p = some h) : SameTwo (h.a, h.b) p := by
  unfold World.entry at he
  obtain ⟨info, -, rfl⟩ := Option.map_eq_some_iff.1 he
  exact info_pair info p

theorem meet_stamp (M : Mth K) (sc : Scene K) (inp : Tick K) (w : World K) (p : Nat × Nat) : (w.meet M sc inp p).stamp = w.stamp :=
  (meet_frame M sc inp w p).2.2.2.2.2.1

theorem meets_stamp (M : Mth K) (sc : Scene K) (inp : Tick K) (calls : List (Nat × Nat)) : ∀ w : World K, (calls.foldl (World.meet M sc inp) w).stamp = w.stamp := by
  induction calls with
  | nil => intro w; rfl
  | cons p calls ih => intro w; rw [List.foldl_cons, ih, meet_stamp]

/-- After all calls, the arbiter for a pair reported is the one its own call has put. -/
theorem meets_cache (M : Mth K) (sc : Scene K) (inp : Tick K) (calls : List (Nat × Nat)) : ∀ w : World K, calls.Pairwise (fun p q => ¬ SameTwo p q) →
    ∀ p ∈ calls, ∀ a b, SameTwo (a, b) p → (calls.foldl (World.meet M sc inp) w).cache.find? (fun o => o.is a b) =
      match w.entry M sc inp p with
      | none => w.cache.find? (fun o => o.is a b)
      | some h => some h := by
  induction calls with
  | nil => intro w _ p hp; cases hp
  | cons q calls ih =>
    intro w hw p hp a b hab
    obtain ⟨h1, h2⟩ := List.pairwise_cons.1 hw
    rw [List.foldl_cons]
    rcases List.mem_cons.1 hp with rfl | hp
    · have := (meets_active M sc inp calls (w.meet M sc inp p) h2).2 p (fun q hq hs => h1 q hq (SameTwo.symm hs))
      rw [this.held a b hab, meet_cache]
      cases he : w.entry M sc inp p with
      | none => rfl
      | some h =>
        refine find_put_same h a b ?_ _
        rw [is_iff]
        exact (entry_pair M sc inp w p h he).trans (SameTwo.symm hab)
    · have hal := meet_other M sc inp w q p (h1 p hp)
      rw [ih _ h2 p hp a b hab, hal.entry (meet_stamp M sc inp w q)]
      cases w.entry M sc inp p with
      | none => exact hal.held a b hab
      | some h => rfl

theorem putHeld_one (h : Held K) (c : List (Held K)) (h1 : OneEach c) : OneEach (putHeld h c) := by
  unfold putHeld
  split
  · unfold OneEach at *
    rw [List.pairwise_map]
    refine h1.imp_of_mem ?_
    intro o o' ho ho' hn
    have key : ∀ x : Held K, SameTwo ((if x.is h.a h.b then h else x).a, (if x.is h.a h.b then h else x).b) (x.a, x.b) := by
      intro x
      split
      · rename_i hi; exact SameTwo.symm ((is_iff x h.a h.b).1 hi)
      · exact .inl rfl
    intro hs
    exact hn ((SameTwo.symm (key o)).trans (hs.trans (key o')))
  · rename_i hany
    refine List.pairwise_cons.2 ⟨?_, h1⟩
    intro o ho hs
    apply hany
    rw [List.any_eq_true]
    exact ⟨o, ho, (is_iff o h.a h.b).2 (SameTwo.symm hs)⟩

theorem putHeld_mem {h o : Held K} {c : List (Held K)} (ho : o ∈ putHeld h c) : o = h ∨ o ∈ c := by
  unfold putHeld at ho
  split at ho
  · obtain ⟨x, hx, rfl⟩ := List.mem_map.1 ho
    split
    · exact .inl rfl
    · exact .inr hx
  · rcases List.mem_cons.1 ho with h | h
    · exact .inl h
    · exact .inr h

theorem meets_one (M : Mth K) (sc : Scene K) (inp : Tick K) (calls : List (Nat × Nat)) : ∀ w : World K, OneEach w.cache →
    OneEach (calls.foldl (World.meet M sc inp) w).cache ∧
    ∀ h ∈ (calls.foldl (World.meet M sc inp) w).cache, h ∈ w.cache ∨ h.stamp = w.stamp ∧ ∃ p ∈ calls, SameTwo (h.a, h.b) p := by
  induction calls with
  | nil => intro w h; exact ⟨h, fun o ho => .inl ho⟩
  | cons p calls ih =>
    intro w h1
    rw [List.foldl_cons]
    have h2 : OneEach (w.meet M sc inp p).cache := by
      rw [meet_cache]
      cases w.entry M sc inp p with
      | none => exact h1
      | some h => exact putHeld_one h _ h1
    obtain ⟨g1, g2⟩ := ih _ h2
    refine ⟨g1, fun o ho => ?_⟩
    rcases g2 o ho with g | ⟨gs, q, hq, g⟩
    · rw [meet_cache] at g
      cases he : w.entry M sc inp p with
      | none => rw [he] at g; exact .inl g
      | some h =>
        rw [he] at g
        rcases putHeld_mem g with rfl | g
        · refine .inr ⟨?_, p, List.mem_cons_self, entry_pair M sc inp w p o he⟩
          unfold World.entry at he
          obtain ⟨info, -, rfl⟩ := Option.map_eq_some_iff.1 he
          rfl
        · exact .inl g
    · exact .inr ⟨by rw [gs, meet_stamp], q, List.mem_cons_of_mem _ hq, g⟩

/-! ## What holds of the kept arbiters after every history -/

structure Tidy (sc : Scene K) (r : Roster) (w : World K) : Prop where
  one : OneEach w.cache
  live : ∀ h ∈ w.cache, r h.a = some true ∨ r h.b = some true
  old : ∀ h ∈ w.cache, h.stamp ≤ w.stamp
  begun : ∀ h ∈ w.cache, h.arb.state = .first → (h.a, h.b) ∈ w.active
  active : ∀ h ∈ w.cache, (h.a, h.b) ∈ w.active → h.arb.state ≠ .cached
  moving : ∀ i, r i = some true → (w.bodies (sc.figs i).body).type sc.par.inf ≠ .static

namespace Spec
/-- The phase a state of an arbiter stands for. -/
def phaseOf : ArbState → Terms
  | .first => .apart
  | .cached => .apart
  | .ignore => .refused
  | .normal => .together
  | .invalidated => .together
end Spec

theorem find_kept {c : List (Held K)} (h1 : OneEach c) (g : Held K → Option (Held K)) (hg : ∀ h o, g h = some o → o.a = h.a ∧ o.b = h.b) (a b : Nat) :
    (c.filterMap g).find? (fun o => o.is a b) = (c.find? (fun o => o.is a b)).bind g := by
  induction c with
  | nil => rfl
  | cons h c ih =>
    obtain ⟨g1, g2⟩ := List.pairwise_cons.1 h1
    have same : ∀ h o : Held K, g h = some o → o.is a b = h.is a b := by
      intro h o e
      obtain ⟨e1, e2⟩ := hg h o e
      simp only [Held.is, e1, e2]
    by_cases hi : h.is a b = true
    · rw [show (h :: c).find? (fun o => o.is a b) = some h from List.find?_cons_of_pos hi, Option.bind_some]
      cases hgh : g h with
      | some o => rw [List.filterMap_cons_some hgh, List.find?_cons_of_pos (by rw [same h o hgh]; exact hi)]
      | none =>
        rw [List.filterMap_cons_none hgh, ih g2]
        cases hf : c.find? (fun o => o.is a b) with
        | none => rfl
        | some o =>
          exfalso
          have ho := List.mem_of_find?_eq_some hf
          have hoi := List.find?_some hf
          rw [is_iff] at hi hoi
          exact g1 o ho (hi.trans (SameTwo.symm hoi))
    · rw [List.find?_cons_of_neg (by simpa using hi)]
      cases hgh : g h with
      | some o => rw [List.filterMap_cons_some hgh, List.find?_cons_of_neg (by rw [same h o hgh]; simpa using hi), ih g2]
      | none => rw [List.filterMap_cons_none hgh, ih g2]

theorem keep_frame (sc : Scene K) (w : World K) (h o : Held K) (e : w.keep sc h = some o) : o.a = h.a ∧ o.b = h.b ∧ o.stamp = h.stamp ∧ (o.arb.state = h.arb.state ∨ o.arb.state = .cached) := by
  unfold World.keep at e
  split at e
  · cases e; exact ⟨rfl, rfl, rfl, .inl rfl⟩
  · dsimp only at e
    split at e
    · cases e
    · cases e
      split
      · exact ⟨rfl, rfl, rfl, .inr rfl⟩
      · exact ⟨rfl, rfl, rfl, .inl rfl⟩

theorem keep_new (sc : Scene K) (hp : 1 ≤ sc.persistence) (w : World K) (h : Held K) (hs : h.stamp = w.stamp) : w.keep sc h = some h := by
  unfold World.keep
  split
  · rfl
  · dsimp only
    rw [if_neg (fun h' => by rw [hs] at h'; omega), if_neg (by rw [hs]; omega)]

theorem keep_old (sc : Scene K) (w : World K) (h o : Held K) (hs : h.stamp < w.stamp)
    (hst : ¬ ((w.bodies (sc.figs h.a).body).type sc.par.inf = .static ∧ (w.bodies (sc.figs h.b).body).type sc.par.inf = .static)) (e : w.keep sc h = some o) :
    o.arb.state = .cached := by
  unfold World.keep at e
  rw [if_neg hst] at e
  dsimp only at e
  split at e
  · cases e
  · cases e
    split
    · rfl
    · rename_i h'
      by_contra hc
      exact h' ⟨by omega, hc⟩

theorem oneEach_kept {c : List (Held K)} (h1 : OneEach c) (g : Held K → Option (Held K)) (hg : ∀ h o, g h = some o → o.a = h.a ∧ o.b = h.b) : OneEach (c.filterMap g) := by
  refine List.Pairwise.filterMap g ?_ h1
  intro h h' hn o ho o' ho'
  obtain ⟨e1, e2⟩ := hg h o ho
  obtain ⟨e3, e4⟩ := hg h' o' ho'
  rw [e1, e2, e3, e4]; exact hn

theorem aged_frame (w : World K) (h : Held K) (hh : h ∈ w.aged) : ∃ h0 ∈ w.cache, h.a = h0.a ∧ h.b = h0.b ∧ h.stamp = h0.stamp ∧
    h.arb.state = if (h0.a, h0.b) ∈ w.active then .normal else h0.arb.state := by
  unfold World.aged at hh
  obtain ⟨h0, hh0, rfl⟩ := List.mem_map.1 hh
  refine ⟨h0, hh0, ?_⟩
  simp only [List.contains_iff_mem]
  split <;> exact ⟨rfl, rfl, rfl, rfl⟩

theorem aged_one {w : World K} (h : OneEach w.cache) : OneEach w.aged := by
  unfold World.aged OneEach
  rw [List.pairwise_map]
  refine h.imp ?_
  intro a b hab
  split <;> split <;> exact hab

theorem updated_state (M : Mth K) (sc : Scene K) (inp : Tick K) (w : World K) (ab : Nat × Nat) (info : Info K) :
    ((w.begun M sc inp).updated sc inp ab info).state =
      if (stateOf w ab = .first ∨ stateOf w ab = .cached) then (if inp.begins ab.1 ab.2 = true then .first else .ignore) else stateOf w ab := by
  have hst : (heldArb (w.begun M sc inp).cache ab.1 ab.2).state = stateOf w ab := by
    show (heldArb w.aged ab.1 ab.2).state = _
    unfold heldArb stateOf
    rw [find_aged]
    cases w.cache.find? (fun o => o.is ab.1 ab.2) with
    | none => rfl
    | some h =>
      simp only [Option.map_some, List.contains_iff_mem]
      split <;> rfl
  unfold World.updated
  simp only [Arbiter.update, hst]
  cases stateOf w ab <;> cases inp.begins ab.1 ab.2 <;> simp

theorem stateOf_same {p q : Nat × Nat} (h : SameTwo p q) (w : World K) : stateOf w p = stateOf w q := by
  rw [stateOf_look, stateOf_look, look_same h]

theorem stateOf_in {w : World K} {ab : Nat × Nat} {o : Nat × Nat × Nat × ArbState} (h : w.look ab = some o) (ha : (o.1, o.2.1) ∈ w.active) : stateOf w ab = .normal := by
  rw [stateOf_look, h]; exact if_pos ha

theorem stateOf_out {w : World K} {ab : Nat × Nat} {o : Nat × Nat × Nat × ArbState} (h : w.look ab = some o) (ha : (o.1, o.2.1) ∉ w.active) : stateOf w ab = o.2.2.2 := by
  rw [stateOf_look, h]; exact if_neg ha

theorem pairwise_eq {l : List (Nat × Nat)} (h : l.Pairwise fun p q => ¬ SameTwo p q) {p q : Nat × Nat} (hp : p ∈ l) (hq : q ∈ l) (hs : SameTwo p q) : p = q := by
  by_contra hne
  have : ∀ p ∈ l, ∀ q ∈ l, p ≠ q → ¬ SameTwo p q := by
    clear hp hq hs hne
    induction l with
    | nil => intro p hp; cases hp
    | cons x l ih =>
      obtain ⟨h1, h2⟩ := List.pairwise_cons.1 h
      intro p hp q hq hne hs
      rcases List.mem_cons.1 hp with rfl | hp' <;> rcases List.mem_cons.1 hq with rfl | hq'
      · exact hne rfl
      · exact h1 q hq' hs
      · exact h1 p hp' (SameTwo.symm hs)
      · exact ih h2 p hp' q hq' hne hs
  exact this p hp q hq hne hs

theorem phase_pass (s : ArbState) (b : Bool) (h : (if s = .first ∨ s = .cached then (if b = true then .first else .ignore) else s) ≠ ArbState.ignore) :
    phaseOf .normal = (phaseOf s).next true b := by
  revert h; cases s <;> cases b <;> simp [phaseOf, Terms.next]

theorem never_cached (s : ArbState) (b : Bool) : (if s = .first ∨ s = .cached then (if b = true then .first else .ignore) else s) ≠ ArbState.cached := by
  cases s <;> cases b <;> simp

theorem phase_fail (s : ArbState) (b : Bool) :
    phaseOf (if (if s = .first ∨ s = .cached then (if b = true then .first else .ignore) else s) = ArbState.ignore then .ignore else .normal) = (phaseOf s).next true b := by
  cases s <;> cases b <;> simp [phaseOf, Terms.next]

theorem positions_type (M : Mth K) (sc : Scene K) (inp : Tick K) (w : World K) (k : Nat) :
    ((w.begun M sc inp).bodies k).type sc.par.inf = (w.bodies k).type sc.par.inf := by
  simp only [World.begun, SolverState.positions]
  split <;> rfl

theorem SamePlace.type {a b : Body K} (h : SamePlace a b) (inf : K) : b.type inf = a.type inf := by
  unfold Body.type; rw [h.1.1, h.1.2]

/-- What a step does to the kept arbiters. -/
theorem step_cache (M : Mth K) (sc : Scene K) (inp : Tick K) (w : World K) (h0 : inp.dt ≠ 0) (h1 : OneEach w.cache) :
    OneEach (w.found M sc inp).cache ∧ OneEach ((w.found M sc inp).swept sc).cache ∧
    (w.step M sc inp).cache.map Held.outline = ((w.found M sc inp).swept sc).cache.map Held.outline ∧
    (w.step M sc inp).stamp = w.stamp + 1 ∧ (w.found M sc inp).stamp = w.stamp + 1 ∧ (w.found M sc inp).bodies = (w.begun M sc inp).bodies := by
  have hf : OneEach (w.found M sc inp).cache := (meets_one M sc inp _ (w.begun M sc inp) (aged_one h1)).1
  have hs : OneEach ((w.found M sc inp).swept sc).cache := oneEach_kept hf _ fun h o e => ⟨(keep_frame sc _ h o e).1, (keep_frame sc _ h o e).2.1⟩
  have hst : (w.found M sc inp).stamp = w.stamp + 1 := meets_stamp M sc inp _ (w.begun M sc inp)
  obtain ⟨hb, -⟩ := meets_frame M sc inp (w.calls M sc inp) (w.begun M sc inp) (by intro q hq; exact absurd hq List.not_mem_nil)
  refine ⟨hf, hs, ?_, ?_, hst, hb⟩
  · unfold World.step
    rw [if_neg h0]
    exact solved_outline M sc inp w _ hs _
  · unfold World.step
    rw [if_neg h0]
    exact hst

end Any

section Exact
variable {K : Type} [Field K] [LinearOrder K] [IsStrictOrderedRing K]

theorem step_phase {M : Mth K} (hM : M.Lawful) {sc : Scene K} {fig : Nat → Figure K} (hm : Made M sc fig) (hper : 1 ≤ sc.persistence) {r : Roster} {w : World K}
    (h : Upright sc r w) (ht : Tidy sc r w) (inp : Tick K) (ho : WOk sc r (.step inp)) (h0 : inp.dt ≠ 0) (hsym : ∀ i j, inp.begins i j = inp.begins j i)
    (hdet : Detects M sc fig r inp w) :
    Tidy sc r (w.step M sc inp) ∧ ∀ i j, (Colliding sc fig r (w.step M sc inp) i j → phaseOf (stateOf (w.step M sc inp) (i, j)) =
        (phaseOf (stateOf w (i, j))).next true (inp.begins i j)) ∧
      (¬ Colliding sc fig r (w.step M sc inp) i j → phaseOf (stateOf (w.step M sc inp) (i, j)) = .apart) := by
  obtain ⟨c1, c2, hhit, csymm, hcall⟩ := calls_exact hM hm h inp ho h0 hdet
  obtain ⟨-, -, -, e4, e5⟩ := step_frame M sc inp w h0
  obtain ⟨k1, k2, k3, k4, k5, k6⟩ := step_cache M sc inp w h0 ht.one
  have hact : (w.step M sc inp).active = (w.calls M sc inp).filterMap ((w.begun M sc inp).solved M sc inp) := by
    rw [e4]
    exact ((meets_active M sc inp (w.calls M sc inp) (w.begun M sc inp) c1).1).trans (List.nil_append _)
  have hbst : (w.begun M sc inp).stamp = w.stamp + 1 := rfl
  have htype : ∀ k, ((w.found M sc inp).bodies k).type sc.par.inf = (w.bodies k).type sc.par.inf := by
    intro k; rw [k6]; exact positions_type M sc inp w k
  have hmem := (meets_one M sc inp (w.calls M sc inp) (w.begun M sc inp) (aged_one ht.one)).2
  -- where the arbiters come from
  have hfrom : ∀ o ∈ (w.found M sc inp).cache, (r o.a = some true ∨ r o.b = some true) ∧ o.stamp ≤ w.stamp + 1 := by
    intro o hoc
    rcases hmem o hoc with ho' | ⟨hs, p, hp, hsp⟩
    · obtain ⟨x, hx, e1, e2, e3, -⟩ := aged_frame w o ho'
      rw [e1, e2, e3]
      exact ⟨ht.live x hx, Nat.le_succ_of_le (ht.old x hx)⟩
    · refine ⟨?_, by rw [hs, hbst]⟩
      obtain ⟨-, -, -, hd⟩ := c2 p hp
      rcases hsp with hsp | hsp
      · rw [← hsp] at hd; exact hd
      · have ea : o.a = p.2 := congrArg Prod.fst hsp
        have eb : o.b = p.1 := congrArg Prod.snd hsp
        rw [ea, eb]; exact hd.symm
  have hlook : ∀ ab : Nat × Nat, (w.step M sc inp).look ab = (((w.found M sc inp).cache.find? (fun o => o.is ab.1 ab.2)).bind ((w.found M sc inp).keep sc)).map Held.outline := by
    intro ab
    have : (w.step M sc inp).look ab = ((w.found M sc inp).swept sc).look ab := look_congr k3 ab
    rw [this]
    unfold World.look
    show (List.find? _ (List.filterMap _ _)).map _ = _
    rw [find_kept k1 _ (fun h o e => ⟨(keep_frame sc _ h o e).1, (keep_frame sc _ h o e).2.1⟩)]
  -- a pair that is found
  have hyes : ∀ p ∈ w.calls M sc inp, ∀ info, (w.begun M sc inp).hit M sc p = some info →
      ∃ hd, (w.begun M sc inp).entry M sc inp p = some hd ∧ (hd.a, hd.b) = info.pair p ∧ hd.stamp = w.stamp + 1 ∧
        (w.found M sc inp).cache.find? (fun o => o.is p.1 p.2) = some hd ∧ (w.step M sc inp).look p = some hd.outline ∧
        ((hd.a, hd.b) ∈ (w.step M sc inp).active ↔ (w.begun M sc inp).passes sc inp (info.pair p) ((w.begun M sc inp).updated sc inp (info.pair p) info)) ∧
        hd.arb.state = if (w.begun M sc inp).passes sc inp (info.pair p) ((w.begun M sc inp).updated sc inp (info.pair p) info)
          then ((w.begun M sc inp).updated sc inp (info.pair p) info).state
          else if ((w.begun M sc inp).updated sc inp (info.pair p) info).state = .ignore then .ignore else .normal := by
    intro p hp info hi
    have he : (w.begun M sc inp).entry M sc inp p = some ⟨(info.pair p).1, (info.pair p).2, w.stamp + 1,
      if (w.begun M sc inp).passes sc inp (info.pair p) ((w.begun M sc inp).updated sc inp (info.pair p) info) then (w.begun M sc inp).updated sc inp (info.pair p) info
      else ((w.begun M sc inp).updated sc inp (info.pair p) info).unused⟩ := by
      unfold World.entry; rw [hi]; rfl
    have hfind := meets_cache M sc inp (w.calls M sc inp) (w.begun M sc inp) c1 p hp p.1 p.2 (.inl rfl)
    rw [he] at hfind
    refine ⟨_, he, rfl, rfl, hfind, ?_, ?_, ?_⟩
    · rw [hlook]
      have hfind' : (w.found M sc inp).cache.find? (fun o => o.is p.1 p.2) = _ := hfind
      rw [hfind', Option.bind_some, keep_new sc hper _ _ k5.symm]
      rfl
    · show info.pair p ∈ _ ↔ _
      rw [hact, List.mem_filterMap]
      constructor
      · rintro ⟨q, hq, hsq⟩
        have hqp : SameTwo q p := by
          unfold World.solved at hsq
          split at hsq
          · cases hsq
          · rename_i info' _
            split at hsq
            · have := Option.some.inj hsq
              exact (SameTwo.symm (info_pair info' q)).trans (this ▸ info_pair info p)
            · cases hsq
        have : q = p := pairwise_eq c1 hq hp hqp
        subst this
        unfold World.solved at hsq
        rw [hi] at hsq
        dsimp only at hsq
        split at hsq
        · assumption
        · cases hsq
      · intro hpass
        refine ⟨p, hp, ?_⟩
        unfold World.solved
        rw [hi]
        dsimp only
        rw [if_pos hpass]
    · dsimp only
      split
      · rfl
      · simp only [Arbiter.unused]
        split <;> simp_all
  -- a pair that is not
  have hno : ∀ ab : Nat × Nat, (∀ p ∈ w.calls M sc inp, SameTwo ab p → (w.begun M sc inp).hit M sc p = none) →
      (w.found M sc inp).cache.find? (fun o => o.is ab.1 ab.2) = w.aged.find? (fun o => o.is ab.1 ab.2) := by
    intro ab hab
    by_cases hex : ∃ p ∈ w.calls M sc inp, SameTwo ab p
    · obtain ⟨p, hp, hs⟩ := hex
      have := meets_cache M sc inp (w.calls M sc inp) (w.begun M sc inp) c1 p hp ab.1 ab.2 hs
      have he : (w.begun M sc inp).entry M sc inp p = none := by
        unfold World.entry; rw [hab p hp hs]; rfl
      rw [he] at this
      exact this
    · have := (meets_active M sc inp (w.calls M sc inp) (w.begun M sc inp) c1).2 ab (fun p hp hs => hex ⟨p, hp, SameTwo.symm hs⟩)
      exact this.held ab.1 ab.2 (.inl rfl)
  have hquiet : ∀ ab : Nat × Nat, (∀ p ∈ w.calls M sc inp, SameTwo ab p → (w.begun M sc inp).hit M sc p = none) → ∀ q ∈ (w.step M sc inp).active, ¬ SameTwo q ab := by
    intro ab hab q hq hs
    rw [hact, List.mem_filterMap] at hq
    obtain ⟨p, hp, hsol⟩ := hq
    unfold World.solved at hsol
    split at hsol
    · cases hsol
    · rename_i info hi
      split at hsol
      · have e := Option.some.inj hsol
        have : SameTwo ab p := (SameTwo.symm hs).trans (e ▸ info_pair info p)
        rw [hab p hp this] at hi
        cases hi
      · cases hsol
  have hgone : ∀ ab : Nat × Nat, (∀ p ∈ w.calls M sc inp, SameTwo ab p → (w.begun M sc inp).hit M sc p = none) → ∀ o, (w.step M sc inp).look ab = some o →
      o.2.2.2 = .cached ∧ (o.1, o.2.1) ∉ (w.step M sc inp).active := by
    intro ab hab o ho'
    rw [hlook, hno ab hab] at ho'
    obtain ⟨k, hk, rfl⟩ := Option.map_eq_some_iff.1 ho'
    obtain ⟨x, hx, hkeep⟩ := Option.bind_eq_some_iff.1 hk
    have hxm := List.mem_of_find?_eq_some hx
    have hxi := List.find?_some hx
    rw [is_iff] at hxi
    obtain ⟨y, hy, e1, e2, e3, -⟩ := aged_frame w x hxm
    obtain ⟨f1, f2, f3, f4⟩ := keep_frame sc _ x k hkeep
    constructor
    · refine keep_old sc _ x k ?_ ?_ hkeep
      · rw [k5, e3]; exact Nat.lt_succ_of_le (ht.old y hy)
      · rw [htype, htype, e1, e2]
        rintro ⟨s1, s2⟩
        rcases ht.live y hy with hl | hl
        · exact ht.moving _ hl s1
        · exact ht.moving _ hl s2
    · intro hmem'
      refine hquiet ab hab _ hmem' ?_
      show SameTwo (k.a, k.b) ab
      rw [f1, f2]; exact hxi
  refine ⟨⟨?_, ?_, ?_, ?_, ?_, ?_⟩, fun i j => ⟨fun hc => ?_, fun hc => ?_⟩⟩
  · exact oneEach_outline k3 k2
  · intro o hoc
    have : o.outline ∈ (w.step M sc inp).cache.map Held.outline := List.mem_map_of_mem hoc
    rw [k3] at this
    obtain ⟨x, hx, e⟩ := List.mem_map.1 this
    obtain ⟨y, hy, hk⟩ := List.mem_filterMap.1 hx
    obtain ⟨f1, f2, f3, f4⟩ := keep_frame sc _ y x hk
    simp only [Held.outline, Prod.mk.injEq] at e
    rw [← e.1, ← e.2.1, f1, f2]
    exact (hfrom y hy).1
  · intro o hoc
    have : o.outline ∈ (w.step M sc inp).cache.map Held.outline := List.mem_map_of_mem hoc
    rw [k3] at this
    obtain ⟨x, hx, e⟩ := List.mem_map.1 this
    obtain ⟨y, hy, hk⟩ := List.mem_filterMap.1 hx
    obtain ⟨f1, f2, f3, f4⟩ := keep_frame sc _ y x hk
    simp only [Held.outline, Prod.mk.injEq] at e
    rw [← e.2.2.1, f3, k4]
    exact (hfrom y hy).2
  · intro o hoc hfirst
    have hlk : (w.step M sc inp).look (o.a, o.b) = some o.outline := by
      unfold World.look
      rw [find_one (oneEach_outline k3 k2) hoc (.inl rfl)]; rfl
    by_cases hex : ∃ p ∈ w.calls M sc inp, SameTwo (o.a, o.b) p ∧ (w.begun M sc inp).hit M sc p ≠ none
    · obtain ⟨p, hp, hs, hi⟩ := hex
      obtain ⟨info, hi⟩ := Option.ne_none_iff_exists'.1 hi
      obtain ⟨hd, -, g2, -, -, g5, g6, g7⟩ := hyes p hp info hi
      rw [look_same hs, g5] at hlk
      simp only [Option.some.injEq, Held.outline, Prod.mk.injEq] at hlk
      rw [← hlk.1, ← hlk.2.1, g6]
      by_contra hn
      rw [if_neg hn, hlk.2.2.2, hfirst] at g7
      split at g7 <;> cases g7
    · have hex' : ∀ p ∈ w.calls M sc inp, SameTwo (o.a, o.b) p → (w.begun M sc inp).hit M sc p = none := by
        intro p hp hs
        by_contra hne
        exact hex ⟨p, hp, hs, hne⟩
      have := (hgone (o.a, o.b) hex' _ hlk).1
      simp only [Held.outline] at this
      rw [hfirst] at this
      cases this
  · intro o hoc hin hca
    have hlk : (w.step M sc inp).look (o.a, o.b) = some o.outline := by
      unfold World.look
      rw [find_one (oneEach_outline k3 k2) hoc (.inl rfl)]; rfl
    by_cases hex : ∃ p ∈ w.calls M sc inp, SameTwo (o.a, o.b) p ∧ (w.begun M sc inp).hit M sc p ≠ none
    · obtain ⟨p, hp, hs, hi⟩ := hex
      obtain ⟨info, hi⟩ := Option.ne_none_iff_exists'.1 hi
      obtain ⟨hd, -, g2, -, -, g5, g6, g7⟩ := hyes p hp info hi
      rw [look_same hs, g5] at hlk
      simp only [Option.some.injEq, Held.outline, Prod.mk.injEq] at hlk
      rw [← hlk.1, ← hlk.2.1, g6] at hin
      rw [if_pos hin, hlk.2.2.2, hca, updated_state] at g7
      exact never_cached _ _ g7.symm
    · have hex' : ∀ p ∈ w.calls M sc inp, SameTwo (o.a, o.b) p → (w.begun M sc inp).hit M sc p = none := by
        intro p hp hs
        by_contra hne
        exact hex ⟨p, hp, hs, hne⟩
      exact hquiet (o.a, o.b) hex' _ hin (.inl rfl)
  · intro i hi
    rw [SamePlace.type (e5 _), positions_type]
    exact ht.moving i hi
  · -- colliding
    have key : ∀ i j, (i, j) ∈ w.calls M sc inp → Colliding sc fig r (w.step M sc inp) i j →
        phaseOf (stateOf (w.step M sc inp) (i, j)) = (phaseOf (stateOf w (i, j))).next true (inp.begins i j) := by
      intro i j hij hc
      obtain ⟨info, hi⟩ := Option.isSome_iff_exists.1 ((hhit (i, j) hij).2 hc)
      obtain ⟨hd, -, g2, -, -, g5, g6, g7⟩ := hyes (i, j) hij info hi
      have hp := info_pair info (i, j)
      have hb : inp.begins (info.pair (i, j)).1 (info.pair (i, j)).2 = inp.begins i j := by
        rcases hp with e | e
        · rw [e]
        · rw [e]; exact hsym j i
      have hu := updated_state M sc inp w (info.pair (i, j)) info
      rw [hb, stateOf_same hp] at hu
      by_cases hpass : (w.begun M sc inp).passes sc inp (info.pair (i, j)) ((w.begun M sc inp).updated sc inp (info.pair (i, j)) info)
      · rw [stateOf_in g5 (g6.2 hpass)]
        have hne := hpass.1
        rw [hu] at hne
        exact phase_pass _ _ hne
      · rw [stateOf_out g5 (fun hmem' => hpass (g6.1 hmem'))]
        show phaseOf hd.arb.state = _
        rw [g7, if_neg hpass, hu]
        exact phase_fail _ _
    rcases hcall i j hc with hij | hij
    · exact key i j hij hc
    · have := key j i hij (csymm i j hc)
      rw [stateOf_same (.inr rfl : SameTwo (i, j) (j, i)), stateOf_same (.inr rfl : SameTwo (i, j) (j, i)) w, this, hsym j i]
  · -- not colliding
    have hex' : ∀ p ∈ w.calls M sc inp, SameTwo (i, j) p → (w.begun M sc inp).hit M sc p = none := by
      intro p hp hs
      by_contra hne
      have hc' := (hhit p hp).1 (Option.isSome_iff_ne_none.2 hne)
      rcases hs with rfl | hs
      · exact hc hc'
      · have e1 : i = p.2 := congrArg Prod.fst hs
        have e2 : j = p.1 := congrArg Prod.snd hs
        rw [e1, e2] at hc
        exact hc (csymm _ _ hc')
    cases hl : (w.step M sc inp).look (i, j) with
    | none => rw [stateOf_look, hl]; rfl
    | some o =>
      obtain ⟨a1, a2⟩ := hgone (i, j) hex' o hl
      rw [stateOf_out hl a2, a1]; rfl

/-! ## The callbacks of a step -/

/-- The state of two shapes is that of their arbiter, as far as the calls of a step can tell. -/
theorem aged_state (w : World K) (a b : Nat) : (heldArb w.aged a b).state = stateOf w (a, b) := by
  unfold heldArb stateOf
  rw [find_aged]
  cases w.cache.find? (fun o => o.is a b) with
  | none => rfl
  | some h =>
    simp only [Option.map_some, List.contains_iff_mem]
    split <;> rfl

theorem begin1_hit (M : Mth K) (sc : Scene K) (w : World K) (p : Nat × Nat) : w.begin1 M sc p = match w.hit M sc p with
    | none => []
    | some info => if (heldArb w.cache (info.pair p).1 (info.pair p).2).state = .first ∨ (heldArb w.cache (info.pair p).1 (info.pair p).2).state = .cached
        then [info.pair p] else [] := by
  unfold World.begin1 World.hit World.answer
  split
  · rfl
  · generalize collide M sc.par.inf sc.tiny (w.shapes p.1) (w.shapes p.2) (if w.tree.pairs.contains p = true then w.ids p.1 p.2 else 0) = o
    cases o with
    | none => rfl
    | some info =>
      cases hc : info.contacts.isEmpty with
      | true => simp [Option.filter, hc]
      | false =>
        simp only [Option.filter, hc, Arbiter.update, Bool.not_false, if_true, Bool.false_eq_true, if_false]
        split_ifs <;> simp_all

theorem AlikeFor.begin1 {w w' : World K} {p : Nat × Nat} (h : AlikeFor w w' p) (M : Mth K) (sc : Scene K) : w'.begin1 M sc p = w.begin1 M sc p := by
  rw [begin1_hit, begin1_hit, h.answer]
  cases w.hit M sc p with
  | none => rfl
  | some info =>
    have := h.held (info.pair p).1 (info.pair p).2 (info_pair info p)
    dsimp only
    unfold heldArb
    rw [this]

theorem begins_eq (M : Mth K) (sc : Scene K) (inp : Tick K) (calls : List (Nat × Nat)) : ∀ w : World K, calls.Pairwise (fun p q => ¬ SameTwo p q) →
    World.begins M sc inp w calls = calls.flatMap (w.begin1 M sc) := by
  induction calls with
  | nil => intro w _; rfl
  | cons p calls ih =>
    intro w hw
    obtain ⟨h1, h2⟩ := List.pairwise_cons.1 hw
    rw [World.begins, ih _ h2, List.flatMap_cons]
    congr 1
    refine List.flatMap_congr fun q hq => ?_
    exact (meet_other M sc inp w p q (h1 q hq)).begin1 M sc

theorem begin1_same (M : Mth K) (sc : Scene K) (w : World K) (p q : Nat × Nat) (hq : q ∈ w.begin1 M sc p) : SameTwo q p ∧ w.begin1 M sc p = [q] := by
  rw [begin1_hit] at hq ⊢
  split at hq
  · cases hq
  · rename_i info hi
    split at hq
    · rw [List.mem_singleton] at hq; subst hq
      rename_i hs
      exact ⟨info_pair info p, if_pos hs⟩
    · cases hq

namespace Spec
/-- The pairs of the list are those with the property, each once. -/
def Lists (l : List (Nat × Nat)) (P : Nat → Nat → Prop) : Prop :=
  l.Pairwise (fun p q => ¬ SameTwo p q) ∧ ∀ i j, (∃ p ∈ l, SameTwo (i, j) p) ↔ P i j
end Spec

theorem phaseOf_apart (s : ArbState) : phaseOf s = .apart ↔ s = .first ∨ s = .cached := by cases s <;> simp [phaseOf]

theorem step_begins {M : Mth K} (hM : M.Lawful) {sc : Scene K} {fig : Nat → Figure K} (hm : Made M sc fig) {r : Roster} {w : World K}
    (h : Upright sc r w) (inp : Tick K) (ho : WOk sc r (.step inp)) (h0 : inp.dt ≠ 0) (hdet : Detects M sc fig r inp w) :
    Lists (World.begins M sc inp (w.begun M sc inp) (w.calls M sc inp)) fun i j => phaseOf (stateOf w (i, j)) = .apart ∧ Colliding sc fig r (w.step M sc inp) i j := by
  obtain ⟨c1, c2, hhit, csymm, hcall⟩ := calls_exact hM hm h inp ho h0 hdet
  rw [begins_eq M sc inp _ _ c1]
  have hst : ∀ p info, (w.begun M sc inp).hit M sc p = some info → (heldArb (w.begun M sc inp).cache (info.pair p).1 (info.pair p).2).state = stateOf w p := by
    intro p info _
    exact (aged_state w _ _).trans (stateOf_same (info_pair info p) w)
  refine ⟨?_, fun i j => ⟨?_, ?_⟩⟩
  · rw [List.flatMap, List.pairwise_flatten, List.pairwise_map]
    constructor
    · intro l hl
      obtain ⟨p, -, rfl⟩ := List.mem_map.1 hl
      by_cases hne : (w.begun M sc inp).begin1 M sc p = []
      · rw [hne]; exact List.Pairwise.nil
      · obtain ⟨q, hq⟩ := List.exists_mem_of_ne_nil _ hne
        rw [(begin1_same M sc _ p q hq).2]; exact List.pairwise_singleton _ _
    · refine c1.imp ?_
      intro p q hpq x hx y hy hxy
      exact hpq ((SameTwo.symm (begin1_same M sc _ p x hx).1).trans (hxy.trans (begin1_same M sc _ q y hy).1))
  · rintro ⟨x, hx, hs⟩
    obtain ⟨p, hp, hxp⟩ := List.mem_flatMap.1 hx
    have hs' : SameTwo (i, j) p := hs.trans (begin1_same M sc _ p x hxp).1
    rw [begin1_hit] at hxp
    split at hxp
    · cases hxp
    · rename_i info hi
      rw [hst p info hi] at hxp
      have hcol := (hhit p hp).1 (by rw [hi]; rfl)
      constructor
      · rw [stateOf_same hs', phaseOf_apart]
        by_contra hn
        rw [if_neg hn] at hxp; cases hxp
      · rcases hs' with rfl | hs'
        · exact hcol
        · have e1 : i = p.2 := congrArg Prod.fst hs'
          have e2 : j = p.1 := congrArg Prod.snd hs'
          rw [e1, e2]; exact csymm _ _ hcol
  · rintro ⟨hph, hcol⟩
    rw [phaseOf_apart] at hph
    have key : ∀ p, p ∈ w.calls M sc inp → SameTwo (i, j) p → Colliding sc fig r (w.step M sc inp) p.1 p.2 →
        ∃ x ∈ (w.calls M sc inp).flatMap ((w.begun M sc inp).begin1 M sc), SameTwo (i, j) x := by
      intro p hp hs hc
      obtain ⟨info, hi⟩ := Option.isSome_iff_exists.1 ((hhit p hp).2 hc)
      refine ⟨info.pair p, List.mem_flatMap.2 ⟨p, hp, ?_⟩, hs.trans (SameTwo.symm (info_pair info p))⟩
      rw [begin1_hit, hi]
      dsimp only
      rw [hst p info hi, ← stateOf_same hs, if_pos hph]
      exact List.mem_singleton_self _
    rcases hcall i j hcol with hp | hp
    · exact key (i, j) hp (.inl rfl) hcol
    · exact key (j, i) hp (.inr rfl) (csymm _ _ hcol)

theorem step_separates {M : Mth K} (hM : M.Lawful) {sc : Scene K} {fig : Nat → Figure K} (hm : Made M sc fig) {r : Roster} {w : World K}
    (h : Upright sc r w) (ht : Tidy sc r w) (inp : Tick K) (ho : WOk sc r (.step inp)) (h0 : inp.dt ≠ 0) (hdet : Detects M sc fig r inp w) :
    Lists ((w.found M sc inp).separates sc) fun i j => phaseOf (stateOf w (i, j)) ≠ .apart ∧ ¬ Colliding sc fig r (w.step M sc inp) i j := by
  obtain ⟨c1, c2, hhit, csymm, hcall⟩ := calls_exact hM hm h inp ho h0 hdet
  obtain ⟨k1, -, -, -, k5, k6⟩ := step_cache M sc inp w h0 ht.one
  have htype : ∀ k, ((w.found M sc inp).bodies k).type sc.par.inf = (w.bodies k).type sc.par.inf := by
    intro k; rw [k6]; exact positions_type M sc inp w k
  have hyes : ∀ ab : Nat × Nat, ∀ p ∈ w.calls M sc inp, SameTwo ab p → (w.begun M sc inp).hit M sc p ≠ none →
      ∃ hd, (w.found M sc inp).cache.find? (fun o => o.is ab.1 ab.2) = some hd ∧ hd.stamp = w.stamp + 1 := by
    intro ab p hp hs hi
    obtain ⟨info, hi⟩ := Option.ne_none_iff_exists'.1 hi
    have := meets_cache M sc inp (w.calls M sc inp) (w.begun M sc inp) c1 p hp ab.1 ab.2 hs
    rw [World.entry, hi] at this
    exact ⟨_, this, rfl⟩
  have hno : ∀ ab : Nat × Nat, (∀ p ∈ w.calls M sc inp, SameTwo ab p → (w.begun M sc inp).hit M sc p = none) →
      (w.found M sc inp).cache.find? (fun o => o.is ab.1 ab.2) = w.aged.find? (fun o => o.is ab.1 ab.2) := by
    intro ab hab
    by_cases hex : ∃ p ∈ w.calls M sc inp, SameTwo ab p
    · obtain ⟨p, hp, hs⟩ := hex
      have := meets_cache M sc inp (w.calls M sc inp) (w.begun M sc inp) c1 p hp ab.1 ab.2 hs
      have he : (w.begun M sc inp).entry M sc inp p = none := by
        unfold World.entry; rw [hab p hp hs]; rfl
      rw [he] at this
      exact this
    · have := (meets_active M sc inp (w.calls M sc inp) (w.begun M sc inp) c1).2 ab (fun p hp hs => hex ⟨p, hp, SameTwo.symm hs⟩)
      exact this.held ab.1 ab.2 (.inl rfl)
  have hcol : ∀ i j, (Colliding sc fig r (w.step M sc inp) i j ↔ ∃ p ∈ w.calls M sc inp, SameTwo (i, j) p ∧ (w.begun M sc inp).hit M sc p ≠ none) := by
    intro i j
    constructor
    · intro hc
      rcases hcall i j hc with hp | hp
      · exact ⟨_, hp, .inl rfl, Option.isSome_iff_ne_none.1 ((hhit _ hp).2 hc)⟩
      · exact ⟨_, hp, .inr rfl, Option.isSome_iff_ne_none.1 ((hhit _ hp).2 (csymm _ _ hc))⟩
    · rintro ⟨p, hp, hs, hi⟩
      have hc' := (hhit p hp).1 (Option.isSome_iff_ne_none.2 hi)
      rcases hs with rfl | hs
      · exact hc'
      · have e1 : i = p.2 := congrArg Prod.fst hs
        have e2 : j = p.1 := congrArg Prod.snd hs
        rw [e1, e2]; exact csymm _ _ hc'
  have hnone : ∀ i j, ¬ Colliding sc fig r (w.step M sc inp) i j → ∀ p ∈ w.calls M sc inp, SameTwo (i, j) p → (w.begun M sc inp).hit M sc p = none := by
    intro i j hc p hp hs
    by_contra hne
    exact hc ((hcol i j).2 ⟨p, hp, hs, hne⟩)
  -- the arbiters that are out of date
  have hfirst : ∀ a b o, w.aged.find? (fun o => o.is a b) = some o → o.arb.state = stateOf w (a, b) ∧ o.arb.state ≠ .first := by
    intro a b o hf
    have hs : o.arb.state = stateOf w (a, b) := by
      rw [← aged_state]; unfold heldArb; rw [hf]
    refine ⟨hs, fun hfirst => ?_⟩
    obtain ⟨y, hy, e1, e2, -, e4⟩ := aged_frame w o (List.mem_of_find?_eq_some hf)
    rw [hfirst] at e4
    by_cases hact : (y.a, y.b) ∈ w.active
    · rw [if_pos hact] at e4; cases e4
    · rw [if_neg hact] at e4
      exact hact (ht.begun y hy e4.symm)
  refine ⟨?_, fun i j => ⟨?_, ?_⟩⟩
  · unfold World.separates
    rw [List.pairwise_map]
    exact k1.filter _
  · rintro ⟨x, hx, hs⟩
    unfold World.separates at hx
    obtain ⟨o, ho', rfl⟩ := List.mem_map.1 hx
    obtain ⟨hoc, hob⟩ := List.mem_filter.1 ho'
    simp only [Bool.and_eq_true, Bool.not_eq_true', decide_eq_false_iff_not, decide_eq_true_eq] at hob
    obtain ⟨⟨-, ho2⟩, ho3⟩ := hob
    have hfo : (w.found M sc inp).cache.find? (fun x => x.is i j) = some o := find_one k1 hoc (SameTwo.symm hs)
    have hnc : ¬ Colliding sc fig r (w.step M sc inp) i j := by
      intro hc
      obtain ⟨p, hp, hsp, hi⟩ := (hcol i j).1 hc
      obtain ⟨hd, hd1, hd2⟩ := hyes (i, j) p hp hsp hi
      have hd1' : (w.found M sc inp).cache.find? (fun x => x.is i j) = some hd := hd1
      rw [hfo] at hd1'
      have := Option.some.inj hd1'
      rw [k5, this, hd2] at ho2
      omega
    refine ⟨?_, hnc⟩
    have := hno (i, j) (hnone i j hnc)
    have hag : w.aged.find? (fun x => x.is i j) = some o := by rw [← this]; exact hfo
    obtain ⟨q1, q2⟩ := hfirst i j o hag
    rw [Ne, phaseOf_apart, ← q1]
    rintro (q | q)
    · exact q2 q
    · exact ho3 q
  · rintro ⟨hph, hnc⟩
    rw [Ne, phaseOf_apart] at hph
    have := hno (i, j) (hnone i j hnc)
    cases hag : w.aged.find? (fun x => x.is i j) with
    | none =>
      exfalso
      apply hph
      left
      rw [← aged_state]; unfold heldArb; rw [hag]; rfl
    | some o =>
      obtain ⟨q1, -⟩ := hfirst i j o hag
      have hof : (w.found M sc inp).cache.find? (fun x => x.is i j) = some o := by rw [← hag]; exact this
      have hoc := List.mem_of_find?_eq_some hof
      have hoi := List.find?_some hof
      rw [is_iff] at hoi
      obtain ⟨y, hy, e1, e2, e3, -⟩ := aged_frame w o (List.mem_of_find?_eq_some hag)
      refine ⟨(o.a, o.b), List.mem_map.2 ⟨o, List.mem_filter.2 ⟨hoc, ?_⟩, rfl⟩, SameTwo.symm hoi⟩
      simp only [Bool.and_eq_true, Bool.not_eq_true', decide_eq_false_iff_not, decide_eq_true_eq]
      refine ⟨⟨?_, ?_⟩, fun hc => hph (.inr (q1 ▸ hc))⟩
      · rw [htype, htype, e1, e2]
        rintro ⟨s1, s2⟩
        rcases ht.live y hy with hl | hl
        · exact ht.moving _ hl s1
        · exact ht.moving _ hl s2
      · rw [k5, e3]
        have := ht.old y hy
        omega

theorem forget_partings {sc : Scene K} {r : Roster} {w : World K} (ht : Tidy sc r w) (x : Nat) :
    Lists (w.partings x) fun i j => phaseOf (stateOf w (i, j)) ≠ .apart ∧ (i = x ∨ j = x) := by
  have hst : ∀ o ∈ w.cache, phaseOf (stateOf w (o.a, o.b)) ≠ .apart ↔ o.arb.state ≠ .cached := by
    intro o ho
    have hl : w.look (o.a, o.b) = some o.outline := by
      unfold World.look; rw [find_one ht.one ho (.inl rfl)]; rfl
    rw [Ne, phaseOf_apart]
    by_cases ha : (o.a, o.b) ∈ w.active
    · rw [stateOf_in hl ha]
      have := ht.active o ho ha
      simp [this]
    · rw [stateOf_out hl ha]
      show ¬ (o.arb.state = .first ∨ o.arb.state = .cached) ↔ _
      have := fun hf => ha (ht.begun o ho hf)
      tauto
  refine ⟨?_, fun i j => ⟨?_, ?_⟩⟩
  · unfold World.partings
    rw [List.pairwise_map]
    exact ht.one.filter _
  · rintro ⟨y, hy, hs⟩
    obtain ⟨o, ho', rfl⟩ := List.mem_map.1 hy
    obtain ⟨hoc, hob⟩ := List.mem_filter.1 ho'
    simp only [Bool.and_eq_true, Bool.or_eq_true, beq_iff_eq, decide_eq_true_eq] at hob
    refine ⟨?_, ?_⟩
    · rw [stateOf_same hs]; exact (hst o hoc).2 hob.2
    · rcases hs with hs | hs
      · have e1 : i = o.a := congrArg Prod.fst hs
        have e2 : j = o.b := congrArg Prod.snd hs
        rw [e1, e2]; exact hob.1
      · have e1 : i = o.b := congrArg Prod.fst hs
        have e2 : j = o.a := congrArg Prod.snd hs
        rw [e1, e2]; exact hob.1.symm
  · rintro ⟨hph, hx⟩
    cases hf : w.cache.find? (fun o => o.is i j) with
    | none =>
      exfalso
      apply hph
      rw [stateOf_look]; unfold World.look; rw [hf]; rfl
    | some o =>
      have hoc := List.mem_of_find?_eq_some hf
      have hoi := List.find?_some hf
      rw [is_iff] at hoi
      rw [← stateOf_same hoi] at hph
      refine ⟨(o.a, o.b), List.mem_map.2 ⟨o, List.mem_filter.2 ⟨hoc, ?_⟩, rfl⟩, SameTwo.symm hoi⟩
      simp only [Bool.and_eq_true, Bool.or_eq_true, beq_iff_eq, decide_eq_true_eq]
      refine ⟨?_, (hst o hoc).1 hph⟩
      rcases hoi with hoi | hoi
      · have e1 : o.a = i := congrArg Prod.fst hoi
        have e2 : o.b = j := congrArg Prod.snd hoi
        rw [e1, e2]; exact hx
      · have e1 : o.a = j := congrArg Prod.fst hoi
        have e2 : o.b = i := congrArg Prod.snd hoi
        rw [e1, e2]; exact hx.symm

/-! ## Whole histories -/

theorem stateOf_congr {w w' : World K} (h1 : w'.cache = w.cache) (h2 : w'.active = w.active) (ab : Nat × Nat) : stateOf w' ab = stateOf w ab := by
  unfold stateOf; rw [h1, h2]

theorem forget_find (w : World K) (x a b : Nat) : (w.forget x).cache.find? (fun o => o.is a b) =
    if a = x ∨ b = x then none else w.cache.find? (fun o => o.is a b) := by
  unfold World.forget
  dsimp only
  rw [List.find?_filter]
  split
  · rename_i hx
    rw [List.find?_eq_none]
    intro o _ h
    obtain ⟨h1, h2⟩ := of_decide_eq_true h
    rw [is_iff] at h2
    simp only [SameTwo, Prod.mk.injEq] at h2
    simp only [Bool.not_eq_true', Bool.or_eq_false_iff, beq_eq_false_iff_ne] at h1
    omega
  · rename_i hx
    congr 1
    funext o
    rw [Bool.eq_iff_iff, decide_eq_true_iff]
    constructor
    · exact fun h => h.2
    · intro hi
      refine ⟨?_, hi⟩
      rw [is_iff] at hi
      simp only [SameTwo, Prod.mk.injEq] at hi
      simp only [Bool.not_eq_true', Bool.or_eq_false_iff, beq_eq_false_iff_ne]
      omega

theorem forget_state (w : World K) (x i j : Nat) : stateOf (w.forget x) (i, j) = if i = x ∨ j = x then .first else stateOf w (i, j) := by
  by_cases hx : i = x ∨ j = x
  · rw [if_pos hx, stateOf_look]
    unfold World.look
    rw [show (w.forget x).cache.find? (fun o => o.is (i, j).1 (i, j).2) = _ from forget_find w x i j, if_pos hx]
    rfl
  · rw [if_neg hx]
    unfold stateOf
    rw [show (w.forget x).cache.find? (fun o => o.is (i, j).1 (i, j).2) = _ from forget_find w x i j, if_neg hx]
    dsimp only
    cases hf : w.cache.find? (fun o => o.is i j) with
    | none => rfl
    | some o =>
      have hi := List.find?_some hf
      rw [is_iff] at hi
      simp only [SameTwo, Prod.mk.injEq] at hi
      have : (o.a, o.b) ∈ (w.forget x).active ↔ (o.a, o.b) ∈ w.active := by
        unfold World.forget
        dsimp only
        rw [List.mem_filter]
        simp only [Bool.not_eq_true', Bool.or_eq_false_iff, beq_eq_false_iff_ne]
        constructor
        · exact fun h => h.1
        · exact fun h => ⟨h, by omega, by omega⟩
      simp only [this]

theorem forget_tidy {sc : Scene K} {r : Roster} {w : World K} (ht : Tidy sc r w) (x : Nat) {w' : World K} (h1 : w'.cache = (w.forget x).cache)
    (h2 : w'.active = (w.forget x).active) (h3 : w'.stamp = w.stamp) (h4 : w'.bodies = w.bodies) : Tidy sc (r.set x none) w' := by
  have hmem : ∀ h ∈ w'.cache, h ∈ w.cache ∧ h.a ≠ x ∧ h.b ≠ x := by
    intro h hh
    rw [h1] at hh
    unfold World.forget at hh
    obtain ⟨q1, q2⟩ := List.mem_filter.1 hh
    simp only [Bool.not_eq_true', Bool.or_eq_false_iff, beq_eq_false_iff_ne] at q2
    exact ⟨q1, q2⟩
  have hact : ∀ p : Nat × Nat, p ∈ w'.active ↔ p ∈ w.active ∧ p.1 ≠ x ∧ p.2 ≠ x := by
    intro p
    rw [h2]
    unfold World.forget
    dsimp only
    rw [List.mem_filter]
    simp only [Bool.not_eq_true', Bool.or_eq_false_iff, beq_eq_false_iff_ne]
  refine ⟨?_, ?_, ?_, ?_, ?_, ?_⟩
  · rw [h1]; exact ht.one.filter _
  · intro h hh
    obtain ⟨q1, q2, q3⟩ := hmem h hh
    simp only [Roster.set, q2, q3, if_false]
    exact ht.live h q1
  · intro h hh; rw [h3]; exact ht.old h (hmem h hh).1
  · intro h hh hf
    obtain ⟨q1, q2⟩ := hmem h hh
    exact (hact _).2 ⟨ht.begun h q1 hf, q2⟩
  · intro h hh ha
    exact ht.active h (hmem h hh).1 ((hact _).1 ha).1
  · intro i hi
    rw [h4]
    refine ht.moving i ?_
    unfold Roster.set at hi
    split at hi
    · cases hi
    · exact hi

theorem add_tidy {sc : Scene K} {r : Roster} {w : World K} (ht : Tidy sc r w) (x : Nat) (d : Bool) (hx : r x = none)
    (hd : d = true → (w.bodies (sc.figs x).body).type sc.par.inf ≠ .static) {w' : World K} (h1 : w'.cache = w.cache)
    (h2 : w'.active = w.active) (h3 : w'.stamp = w.stamp) (h4 : w'.bodies = w.bodies) : Tidy sc (r.set x (some d)) w' := by
  refine ⟨by rw [h1]; exact ht.one, ?_, by rw [h1, h3]; exact ht.old, by rw [h1, h2]; exact ht.begun, by rw [h1, h2]; exact ht.active, ?_⟩
  · intro h hh
    rw [h1] at hh
    have hne : ∀ y, r y = some true → r.set x (some d) y = some true := by
      intro y hy
      unfold Roster.set
      rw [if_neg (fun e => by subst e; rw [hx] at hy; cases hy)]
      exact hy
    exact (ht.live h hh).imp (hne _) (hne _)
  · intro i hi
    rw [h4]
    unfold Roster.set at hi
    split at hi
    · rename_i e; subst e
      exact hd (Option.some.inj hi)
    · exact ht.moving i hi

theorem run1_phase {M : Mth K} (hM : M.Lawful) {sc : Scene K} {fig : Nat → Figure K} (hm : Made M sc fig) (hper : 1 ≤ sc.persistence) {r : Roster} {w : World K}
    (h : Upright sc r w) (ht : Tidy sc r w) (op : WorldOp K) (ho : WOk sc r op) (hf : FineOp M sc fig r w op) {w' : World K} (hw : w.run1 M sc op = some w') :
    Tidy sc (rosterStep r op) w' ∧ ∀ ph : TermsOf, (∀ i j, phaseOf (stateOf w (i, j)) = ph i j) → ∀ i j, phaseOf (stateOf w' (i, j)) = phasesNext sc fig r w' ph op i j := by
  cases op with
  | step inp =>
    obtain rfl := Option.some.inj hw
    by_cases h0 : inp.dt = 0
    · have e : w.step M sc inp = w := by unfold World.step; rw [if_pos h0]
      rw [e]
      refine ⟨ht, fun ph hph i j => ?_⟩
      simp only [phasesNext, if_pos h0]; exact hph i j
    · obtain ⟨h1, h2⟩ := step_phase hM hm hper h ht inp ho h0 hf.1 (finds_detects hM hm h inp ho hf.2)
      refine ⟨h1, fun ph hph i j => ?_⟩
      simp only [phasesNext, if_neg h0]
      obtain ⟨q1, q2⟩ := h2 i j
      by_cases hc : Colliding sc fig r (w.step M sc inp) i j
      · simp only [hc, decide_true]; rw [q1 hc, hph]
      · simp only [hc, decide_false]; rw [q2 hc]
        cases ph i j <;> rfl
  | addDyn x =>
    obtain ⟨t, -, rfl⟩ := Option.map_eq_some_iff.1 hw
    exact ⟨add_tidy ht x true ho (fun _ => hf) rfl rfl rfl rfl, fun ph hph i j => (congrArg phaseOf (stateOf_congr (w := w) rfl rfl _)).trans (hph i j)⟩
  | addStat x =>
    obtain ⟨t, -, rfl⟩ := Option.map_eq_some_iff.1 hw
    exact ⟨add_tidy ht x false ho (fun e => by cases e) rfl rfl rfl rfl, fun ph hph i j => (congrArg phaseOf (stateOf_congr (w := w) rfl rfl _)).trans (hph i j)⟩
  | removeDyn x =>
    obtain ⟨t, -, rfl⟩ := Option.map_eq_some_iff.1 hw
    refine ⟨forget_tidy ht x rfl rfl rfl rfl, fun ph hph i j => ?_⟩
    refine (congrArg phaseOf ((stateOf_congr (w := w.forget x) rfl rfl _).trans (forget_state w x i j))).trans ?_
    simp only [phasesNext]
    split
    · rfl
    · exact hph i j
  | removeStat x =>
    obtain ⟨t, -, rfl⟩ := Option.map_eq_some_iff.1 hw
    refine ⟨forget_tidy ht x rfl rfl rfl rfl, fun ph hph i j => ?_⟩
    refine (congrArg phaseOf ((stateOf_congr (w := w.forget x) rfl rfl _).trans (forget_state w x i j))).trans ?_
    simp only [phasesNext]
    split
    · rfl
    · exact hph i j
  | reindex x =>
    obtain rfl := Option.some.inj hw
    exact ⟨⟨ht.one, ht.live, ht.old, ht.begun, ht.active, ht.moving⟩, fun ph hph i j => (congrArg phaseOf (stateOf_congr (w := w) rfl rfl _)).trans (hph i j)⟩
  | setBody k b =>
    obtain rfl := Option.some.inj hw
    refine ⟨⟨ht.one, ht.live, ht.old, ht.begun, ht.active, fun i hi => ?_⟩, fun ph hph i j => (congrArg phaseOf (stateOf_congr (w := w) rfl rfl _)).trans (hph i j)⟩
    dsimp only
    split
    · rename_i e; exact hf ⟨i, hi, e⟩
    · exact ht.moving i hi
  | setJoints js barred =>
    obtain rfl := Option.some.inj hw
    exact ⟨⟨ht.one, ht.live, ht.old, ht.begun, ht.active, ht.moving⟩, fun ph hph i j => (congrArg phaseOf (stateOf_congr (w := w) rfl rfl _)).trans (hph i j)⟩

theorem run_phase {M : Mth K} (hM : M.Lawful) {sc : Scene K} {fig : Nat → Figure K} (hm : Made M sc fig) (hper : 1 ≤ sc.persistence) (ops : List (WorldOp K)) :
    ∀ (r : Roster) (w : World K) (ph : TermsOf), Upright sc r w → Tidy sc r w → WLegal sc r ops → Fine M sc fig r w ops → (∀ i j, phaseOf (stateOf w (i, j)) = ph i j) →
    ∃ w', w.run M sc ops = some w' ∧ Upright sc (rosterAfter r ops) w' ∧ Tidy sc (rosterAfter r ops) w' ∧
      ∀ i j, phaseOf (stateOf w' (i, j)) = phasesAfter M sc fig r w ph ops i j := by
  induction ops with
  | nil => intro r w ph h ht _ _ hph; exact ⟨w, rfl, h, ht, hph⟩
  | cons op ops ih =>
    intro r w ph h ht hl hf hph
    obtain ⟨w1, e1, h1⟩ := run1_upright hM hm h op hl.1
    obtain ⟨t1, p1⟩ := run1_phase hM hm hper h ht op hl.1 hf.1 e1
    obtain ⟨w2, e2, h2, t2, p2⟩ := ih _ _ _ h1 t1 hl.2 (hf.2 w1 e1) (p1 ph hph)
    refine ⟨w2, by simp only [World.run, e1, e2], h2, t2, fun i j => ?_⟩
    rw [p2 i j]
    simp only [phasesAfter, e1]

theorem init_tidy (sc : Scene K) (bodies : Nat → Body K) (shapes : Nat → CShape K) : Tidy sc (fun _ => none) (World.init bodies shapes) :=
  ⟨List.Pairwise.nil, (fun _ h => by cases h), (fun _ h => by cases h), (fun _ h => by cases h), (fun _ h => by cases h), (fun _ h => by cases h)⟩

/-- **C114.** Whatever the history, the state kept for any two shapes stands for their phase: apart, together, or refused, where the phase changes when they
meet, part, or one of them is removed. -/
theorem C114_phases {M : Mth K} (hM : M.Lawful) {sc : Scene K} {fig : Nat → Figure K} (hm : Made M sc fig) (hper : 1 ≤ sc.persistence) (bodies : Nat → Body K)
    (shapes : Nat → CShape K) (hb : ∀ k, Rigid (bodies k).tr) (hs : ∀ i, (shapes i).bb.L ≤ (shapes i).bb.R ∧ (shapes i).bb.B ≤ (shapes i).bb.T)
    (ops : List (WorldOp K)) (hl : WLegal sc (fun _ => none) ops) (hf : Fine M sc fig (fun _ => none) (World.init bodies shapes) ops) :
    ∃ w, (World.init bodies shapes).run M sc ops = some w ∧
      ∀ i j, phaseOf (stateOf w (i, j)) = phasesAfter M sc fig (fun _ => none) (World.init bodies shapes) (fun _ _ => .apart) ops i j := by
  obtain ⟨w, h1, -, -, h2⟩ := run_phase hM hm hper ops _ _ (fun _ _ => .apart) (init_upright sc bodies shapes hb hs) (init_tidy sc bodies shapes) hl hf fun _ _ => rfl
  exact ⟨w, h1, h2⟩

/-- **C114.** After any history, a step calls `BeginFunc` exactly for the shapes that were apart and now collide, once, and `SeparateFunc` exactly for those that
were not apart and now do not collide, once; the removal of a shape calls `SeparateFunc` exactly for the shapes it was not apart from, once. -/
theorem C114_callbacks {M : Mth K} (hM : M.Lawful) {sc : Scene K} {fig : Nat → Figure K} (hm : Made M sc fig) (hper : 1 ≤ sc.persistence) (bodies : Nat → Body K)
    (shapes : Nat → CShape K) (hb : ∀ k, Rigid (bodies k).tr) (hs : ∀ i, (shapes i).bb.L ≤ (shapes i).bb.R ∧ (shapes i).bb.B ≤ (shapes i).bb.T)
    (ops : List (WorldOp K)) (hl : WLegal sc (fun _ => none) ops) (hf : Fine M sc fig (fun _ => none) (World.init bodies shapes) ops) :
    ∃ w, (World.init bodies shapes).run M sc ops = some w ∧
      ∀ ph, ph = phasesAfter M sc fig (fun _ => none) (World.init bodies shapes) (fun _ _ => .apart) ops → ∀ r, r = rosterAfter (fun _ => none) ops →
        (∀ inp : Tick K, inp.dt ≠ 0 → WOk sc r (.step inp) → Finds M sc fig r inp w →
          Lists (World.begins M sc inp (w.begun M sc inp) (w.calls M sc inp)) (fun i j => ph i j = .apart ∧ Colliding sc fig r (w.step M sc inp) i j) ∧
          Lists ((w.found M sc inp).separates sc) (fun i j => ph i j ≠ .apart ∧ ¬ Colliding sc fig r (w.step M sc inp) i j)) ∧
        ∀ x, Lists (w.partings x) fun i j => ph i j ≠ .apart ∧ (i = x ∨ j = x) := by
  obtain ⟨w, h1, hu, ht, h2⟩ := run_phase hM hm hper ops _ _ (fun _ _ => .apart) (init_upright sc bodies shapes hb hs) (init_tidy sc bodies shapes) hl hf fun _ _ => rfl
  refine ⟨w, h1, ?_⟩
  rintro ph rfl r rfl
  refine ⟨fun inp h0 ho hfi => ?_, fun x => ?_⟩
  · have hd := finds_detects hM hm hu inp ho hfi
    have g1 := step_begins hM hm hu inp ho h0 hd
    have g2 := step_separates hM hm hu ht inp ho h0 hd
    simp only [h2] at g1 g2
    exact ⟨g1, g2⟩
  · have g := forget_partings ht x
    simp only [h2] at g
    exact g

/-! ## Examples -/

theorem exAbove_easy (r : Roster) (hr : ∀ i, r i = if i = 0 ∨ i = 1 then some true else if i = 2 then some false else none) : AllEasy exAbove exAboveFig r := by
  intro i j hi hj hd hb
  have two : ∀ i, r i = some true → i ≠ 2 := by
    rintro i h rfl; rw [hr] at h; simp at h
  unfold exAboveFig
  rcases hd with hd | hd
  · rw [if_neg (two i hd)]; split <;> exact trivial
  · rw [if_neg (two j hd)]; split <;> exact trivial

theorem add_bodies (M : Mth K) (sc : Scene K) (w w' : World K) (i : Nat) (h : w.run1 M sc (.addDyn i) = some w' ∨ w.run1 M sc (.addStat i) = some w') :
    w'.bodies = w.bodies := by
  rcases h with h | h
  · obtain ⟨t, -, rfl⟩ := Option.map_eq_some_iff.1 h; rfl
  · obtain ⟨t, -, rfl⟩ := Option.map_eq_some_iff.1 h; rfl

/-- The hypotheses of `C114_phases` and `C114_callbacks`: two balls that come together above a rod, one of which is then taken away and put elsewhere. -/
example : Made realMth exAbove exAboveFig ∧ 1 ≤ exAbove.persistence ∧ (∀ k, Rigid (exAboveBodies k).tr) ∧
    WLegal exAbove (fun _ => none) (exAboveDo ++ [.step ⟨1/2, [0, 1], [1, 0], fun _ _ => true, fun _ _ => true⟩]) ∧ ∀ shapes,
    Fine realMth exAbove exAboveFig (fun _ => none) (World.init exAboveBodies shapes) (exAboveDo ++ [.step ⟨1/2, [0, 1], [1, 0], fun _ _ => true, fun _ _ => true⟩]) := by
  obtain ⟨h1, h2, h3, -⟩ := exAbove_hyps
  refine ⟨h1, by simp [exAbove], h2, h3, fun shapes => ?_⟩
  have hspot : ∀ x v, (exSpotAt x v).type exAbove.par.inf ≠ .static := by
    intro x v; norm_num [exSpotAt, exAbove, Body.type, Body.blank]; decide
  have hros : ∀ r : Roster, (∀ i, r i = if i = 0 ∨ i = 1 then some true else if i = 2 then some false else none) → ∀ w : World ℝ, ∀ dt : ℝ, ∀ o : List Nat,
      FineOp realMth exAbove exAboveFig r w (.step ⟨dt, [0, 1], o, fun _ _ => true, fun _ _ => true⟩) :=
    fun r hr w dt o => And.intro (fun _ _ => rfl) (Or.inl (exAbove_easy r hr))
  refine ⟨trivial, fun w1 e1 => ⟨?_, fun w2 e2 => ⟨?_, fun w3 e3 => ⟨hros _ (fun i => ?_) _ _ _, fun w4 e4 => ⟨trivial, fun w5 e5 => ⟨(fun _ => hspot _ _),
    (fun w6 e6 => ⟨?_, (fun w7 e7 => ⟨hros _ (fun i => ?_) _ _ _, (fun _ _ => trivial)⟩)⟩)⟩⟩⟩⟩⟩⟩
  · show (w1.bodies 0).type _ ≠ _
    rw [add_bodies _ _ _ _ _ (.inr e1)]
    exact hspot 0 1
  · show (w2.bodies 1).type _ ≠ _
    rw [add_bodies _ _ _ _ _ (.inl e2), add_bodies _ _ _ _ _ (.inr e1)]
    exact hspot (5/2) 0
  · simp only [rosterStep, Roster.set]
    by_cases h0 : i = 0
    · simp [h0]
    · by_cases h1 : i = 1 <;> simp [h0, h1]
  · obtain rfl := Option.some.inj e6
    exact hspot 7 1
  · simp only [rosterStep, Roster.set]
    by_cases h0 : i = 0
    · simp [h0]
    · by_cases h1 : i = 1 <;> simp [h0, h1]

end Exact

end Cm
