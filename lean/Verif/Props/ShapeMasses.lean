import Verif.Model.ShapeMade
import Verif.Props.ShapePoly
import Verif.Props.Body
/-! # C96: the masses of a body follow its shapes -/
set_option linter.unusedSectionVars false
set_option linter.unusedSimpArgs false
set_option linter.unusedVariables false

namespace Cm
open Spec
variable {K : Type} [Field K] [LinearOrder K] [IsStrictOrderedRing K]

namespace Spec
/-- The body has the mass, the centre of gravity and the moment of its shapes taken together. -/
def Composite (b : Body K) (l : List (MassInfo K)) : Prop :=
  b.m = massSum l ∧ b.cog = ⟨momX l / massSum l, momY l / massSum l⟩ ∧
  b.i = inertiaAbout l ⟨momX l / massSum l, momY l / massSum l⟩ ∧ b.mInv = 1 / massSum l ∧
  b.iInv = 1 / inertiaAbout l ⟨momX l / massSum l, momY l / massSum l⟩

/-- The calls on a body that set no mass. -/
def Moves : Body.Op K → Prop
  | .setMass _ => False
  | .setMoment _ => False
  | .setType _ _ => False
  | .accumulate _ => False
  | _ => True

/-- A call: fresh identities for new shapes, no explicit mass for the body. -/
def MassOpOk (o : Owner K) : Owner.Op K → Prop
  | .attachCircle k _ _ => k ∉ o.shapes.map Prod.fst
  | .attachSegment k _ _ _ => k ∉ o.shapes.map Prod.fst
  | .attachPoly k _ _ => k ∉ o.shapes.map Prod.fst
  | .move op => Moves op
  | _ => True

/-- A history of such calls in which no shape ever has a negative mass. -/
def MassOps (M : Mth K) (inf pi : K) : Owner K → List (Owner.Op K) → Prop
  | _, [] => True
  | o, op :: ops => MassOpOk o op ∧ (∀ s ∈ (o.step M inf pi op).shapes, 0 ≤ s.2.info.m) ∧ MassOps M inf pi (o.step M inf pi op) ops

/-- A dynamic body with a shape that has mass is the composite of its shapes. -/
def Weighed (inf : K) (o : Owner K) : Prop :=
  o.body.type inf = .dynamic → 0 < massSum (Owner.masses o.shapes) → Composite o.body (Owner.masses o.shapes)
end Spec

/-- Two lists of shapes that weigh the same. -/
def SameWeight (l l' : List (MassInfo K)) : Prop :=
  massSum l = massSum l' ∧ momX l = momX l' ∧ momY l = momY l' ∧ ∀ c, inertiaAbout l c = inertiaAbout l' c

theorem SameWeight.composite {l l' : List (MassInfo K)} (h : SameWeight l l') {b : Body K} (hb : Composite b l) : Composite b l' := by
  obtain ⟨h1, h2, h3, h4⟩ := h
  unfold Composite at *
  rw [← h1, ← h2, ← h3, ← h4]
  exact hb

theorem SameWeight.of_perm {l l' : List (MassInfo K)} (h : l.Perm l') : SameWeight l l' :=
  ⟨(h.map _).sum_eq, (h.map _).sum_eq, (h.map _).sum_eq, fun _ => (h.map _).sum_eq⟩

theorem SameWeight.trans {l l' l'' : List (MassInfo K)} (h : SameWeight l l') (g : SameWeight l' l'') : SameWeight l l'' :=
  ⟨h.1.trans g.1, h.2.1.trans g.2.1, h.2.2.1.trans g.2.2.1, fun c => (h.2.2.2 c).trans (g.2.2.2 c)⟩

theorem SameWeight.massless (x : MassInfo K) (hx : x.m = 0) (l : List (MassInfo K)) : SameWeight (x :: l) l := by
  simp [SameWeight, massSum, momX, momY, inertiaAbout, hx]

theorem SameWeight.cons (x : MassInfo K) {l l' : List (MassInfo K)} (h : SameWeight l l') : SameWeight (x :: l) (x :: l') := by
  obtain ⟨h1, h2, h3, h4⟩ := h
  simp only [massSum, momX, momY, inertiaAbout] at h1 h2 h3 h4
  simp [SameWeight, massSum, momX, momY, inertiaAbout, h1, h2, h3, h4]

theorem SameWeight.refl (l : List (MassInfo K)) : SameWeight l l := ⟨rfl, rfl, rfl, fun _ => rfl⟩

theorem accumulate_type (M : Mth K) (inf : K) (b : Body K) (l : List (MassInfo K)) (h : b.type inf ≠ .dynamic) : b.accumulate M inf l = b := by
  unfold Body.accumulate
  rw [if_pos h]

/-- Whatever was before, a new sum is right. -/
theorem weighed_accumulate (M : Mth K) (inf : K) (o : Owner K) (h : ∀ s ∈ o.shapes, 0 ≤ s.2.info.m) : Weighed inf (o.accumulate M inf) := by
  intro hd hp
  by_cases ht : o.body.type inf = .dynamic
  · exact C32_mass_properties M inf o.body _ ht (by
      intro s hs
      obtain ⟨x, hx, rfl⟩ := List.mem_map.1 hs
      exact h x hx) hp
  · exact absurd (by rw [← accumulate_type M inf o.body (Owner.masses o.shapes) ht]; exact hd) ht

theorem weighed_same {inf : K} {o : Owner K} (h : Weighed inf o) {l : List (Nat × MShape K)} (hs : SameWeight (Owner.masses o.shapes) (Owner.masses l)) :
    Weighed inf { o with shapes := l } := fun hd hp => hs.composite (h hd (by rw [hs.1]; exact hp))

theorem sameWeight_change {l : List (Nat × MShape K)} (hk : (l.map Prod.fst).Nodup) {k : Nat} {s : Nat × MShape K} (hf : l.find? (fun s => s.1 = k) = some s)
    (hm : s.2.info.m = 0) (f : MShape K → MShape K) (hf0 : (f s.2).info.m = 0) : SameWeight (Owner.masses l) (Owner.masses (Owner.change k f l)) := by
  induction l with
  | nil => simp at hf
  | cons x l ih =>
    rw [List.map_cons, List.nodup_cons] at hk
    by_cases hx : x.1 = k
    · rw [List.find?_cons_of_pos (by simpa using hx), Option.some.injEq] at hf
      subst hf
      have hno : Owner.change k f l = l := by
        unfold Owner.change
        conv_rhs => rw [← List.map_id l]
        refine List.map_congr_left fun y hy => ?_
        have : y.1 ≠ k := fun e => hk.1 (by rw [hx, ← e]; exact List.mem_map_of_mem hy)
        simp [this]
      have e : Owner.change k f (x :: l) = (x.1, f x.2) :: l := by
        show (if x.1 = k then (x.1, f x.2) else x) :: Owner.change k f l = _
        rw [if_pos hx, hno]
      rw [e]
      refine (SameWeight.massless _ hm (Owner.masses l)).trans ?_
      have := SameWeight.massless (⟨(f x.2).info.m, (f x.2).info.i, (f x.2).info.cog⟩ : MassInfo K) hf0 (Owner.masses l)
      exact ⟨this.1.symm, this.2.1.symm, this.2.2.1.symm, fun c => (this.2.2.2 c).symm⟩
    · rw [List.find?_cons_of_neg (by simpa using hx)] at hf
      have e : Owner.change k f (x :: l) = x :: Owner.change k f l := by
        show (if x.1 = k then (x.1, f x.2) else x) :: Owner.change k f l = _
        rw [if_neg hx]
      rw [e]
      exact SameWeight.cons _ (ih hk.2 hf)

theorem keys_change (k : Nat) (f : MShape K → MShape K) (l : List (Nat × MShape K)) : (Owner.change k f l).map Prod.fst = l.map Prod.fst := by
  unfold Owner.change
  rw [List.map_map]
  refine List.map_congr_left fun s _ => ?_
  simp only [Function.comp_apply]
  split <;> rfl

theorem swapRemove_perm {α : Type} (l : List α) (i : Nat) (hi : i < l.length) : (l[i] :: Owner.swapRemove i l).Perm l := by
  rcases l.eq_nil_or_concat with rfl | ⟨l, z, rfl⟩
  · simp at hi
  · simp only [List.concat_eq_append] at *
    unfold Owner.swapRemove
    rw [List.getLast?_append]
    simp only [List.getLast?_singleton, Option.some_or]
    have hi' : i < l.length + 1 := by simpa using hi
    by_cases h : i < l.length
    · rw [List.set_append_left _ _ h, List.dropLast_concat, List.getElem_append_left h]
      have h1 := List.set_perm_cons_eraseIdx h z
      have h2 := List.getElem_cons_eraseIdx_perm h
      refine (h1.cons _).trans ((List.Perm.swap _ _ _).trans ?_)
      refine (h2.cons z).trans ?_
      exact (List.perm_append_comm (l₁ := [z]) (l₂ := l))
    · have : i = l.length := by omega
      subst this
      simp only [List.getElem_concat_length]
      rw [List.set_append_right _ _ le_rfl]
      simp only [Nat.sub_self, List.set_cons_zero, List.dropLast_concat]
      exact (List.perm_append_comm (l₁ := [z]) (l₂ := l))

theorem find_findIdx {α : Type} (p : α → Bool) : ∀ (l : List α) (i : Nat) (s : α), l.findIdx? p = some i → l.find? p = some s → ∃ h : i < l.length, l[i] = s
  | [], _, _, h, _ => by simp at h
  | x :: l, i, s, h, hs => by
    by_cases hx : p x = true
    · rw [List.findIdx?_cons, if_pos hx, Option.some.injEq] at h
      rw [List.find?_cons_of_pos hx, Option.some.injEq] at hs
      subst h; subst hs
      exact ⟨by simp, rfl⟩
    · rw [List.findIdx?_cons, if_neg hx, Option.map_eq_some_iff] at h
      obtain ⟨j, hj, rfl⟩ := h
      rw [List.find?_cons_of_neg hx] at hs
      obtain ⟨h1, h2⟩ := find_findIdx p l j s hj hs
      exact ⟨by simpa using h1, by simpa using h2⟩

theorem moves_keep (M : Mth K) (inf : K) (b : Body K) (op : Body.Op K) (h : Moves op) :
    (b.step M inf op).m = b.m ∧ (b.step M inf op).i = b.i ∧ (b.step M inf op).cog = b.cog ∧ (b.step M inf op).mInv = b.mInv ∧ (b.step M inf op).iInv = b.iInv ∧
    (b.step M inf op).idle = b.idle := by
  cases op <;> simp only [Moves] at h <;> try exact ⟨rfl, rfl, rfl, rfl, rfl, rfl⟩
  simp only [Body.step, Body.updateVelocity]
  split <;> exact ⟨rfl, rfl, rfl, rfl, rfl, rfl⟩

theorem mem_change {k : Nat} {f : MShape K → MShape K} {l : List (Nat × MShape K)} {s : Nat × MShape K} (h : s ∈ Owner.change k f l) : s ∈ l ∨ ∃ t ∈ l, s = (t.1, f t.2) := by
  obtain ⟨x, hx, e⟩ := List.mem_map.1 h
  by_cases hk : x.1 = k
  · rw [if_pos hk] at e; exact Or.inr ⟨x, hx, e.symm⟩
  · rw [if_neg hk] at e; exact Or.inl (e ▸ hx)

theorem weighed_reshape (M : Mth K) (inf pi : K) (o : Owner K) (k : Nat) (g : Cls K → Cls K) (h : Weighed inf o) (hk : (o.shapes.map Prod.fst).Nodup)
    (h0 : ∀ s ∈ o.shapes, 0 ≤ s.2.info.m) : Weighed inf (o.reshape M inf pi k g) ∧ ((o.reshape M inf pi k g).shapes.map Prod.fst).Nodup := by
  unfold Owner.reshape
  cases hf : o.shapes.find? (fun s => s.1 = k) with
  | none => exact ⟨h, hk⟩
  | some s =>
    simp only
    have hmi : ∀ (c : Cls K) m, (c.massInfo M pi m).m = m := fun c m => by cases c <;> rfl
    have hkeys : ((Owner.change k (fun s => (⟨g s.cls, (g s.cls).massInfo M pi s.info.m⟩ : MShape K)) o.shapes).map Prod.fst).Nodup := by rw [keys_change]; exact hk
    split
    · refine ⟨weighed_accumulate M inf _ fun x hx => ?_, hkeys⟩
      rcases mem_change (show x ∈ Owner.change k (fun s => (⟨g s.cls, (g s.cls).massInfo M pi s.info.m⟩ : MShape K)) o.shapes from hx) with hx | ⟨y, hy, rfl⟩
      · exact h0 x hx
      · simp only [hmi]; exact h0 y hy
    · rename_i hm
      have hs0 : s.2.info.m = 0 := le_antisymm (not_lt.1 hm) (h0 s (List.mem_of_find?_eq_some hf))
      exact ⟨weighed_same h (sameWeight_change hk hf hs0 _ (by rw [hmi]; exact hs0)), hkeys⟩

theorem weighed_attach (M : Mth K) (inf : K) (o : Owner K) (k : Nat) (s : MShape K) (h : Weighed inf o) (hk : (o.shapes.map Prod.fst).Nodup) (hn : k ∉ o.shapes.map Prod.fst)
    (h0 : ∀ s ∈ o.shapes, 0 ≤ s.2.info.m) (hs : s.info.m = 0) : Weighed inf (o.attach M inf k s) ∧ ((o.attach M inf k s).shapes.map Prod.fst).Nodup := by
  unfold Owner.attach
  simp only
  rw [if_neg (by rw [hs]; exact lt_irrefl 0)]
  constructor
  · refine weighed_same h ?_
    have : (Owner.masses (o.shapes ++ [(k, s)])).Perm (⟨s.info.m, s.info.i, s.info.cog⟩ :: Owner.masses o.shapes) := by
      unfold Owner.masses
      rw [List.map_append]
      exact List.perm_append_comm
    have w := (SameWeight.of_perm this).trans (SameWeight.massless _ hs _)
    exact ⟨w.1.symm, w.2.1.symm, w.2.2.1.symm, fun c => (w.2.2.2 c).symm⟩
  · rw [List.map_append, List.map_singleton, List.nodup_append]
    exact ⟨hk, by simp, fun a ha b hb e => hn (by simp only [List.mem_singleton] at hb; rw [← hb, ← e]; exact ha)⟩

theorem weighed_remove (M : Mth K) (inf : K) (o : Owner K) (k : Nat) (h : Weighed inf o) (hk : (o.shapes.map Prod.fst).Nodup)
    (h0 : ∀ s ∈ o.shapes, 0 ≤ s.2.info.m) : Weighed inf (o.remove M inf k) ∧ ((o.remove M inf k).shapes.map Prod.fst).Nodup := by
  unfold Owner.remove
  split
  · rename_i i s hi hs
    obtain ⟨hlt, e⟩ := find_findIdx _ _ _ _ hi hs
    have hp := swapRemove_perm o.shapes i hlt
    rw [e] at hp
    have hkeys : ((Owner.swapRemove i o.shapes).map Prod.fst).Nodup := (List.nodup_cons.1 ((hp.map Prod.fst).nodup_iff.2 hk)).2
    have hin : ∀ x ∈ Owner.swapRemove i o.shapes, x ∈ o.shapes := fun x hx => hp.subset (List.mem_cons_of_mem _ hx)
    simp only
    split
    · exact ⟨weighed_accumulate M inf _ fun x hx => h0 x (hin x hx), hkeys⟩
    · rename_i hc
      refine ⟨fun hd hpos => ?_, hkeys⟩
      have hm : ¬ s.2.info.m > 0 := fun hm => hc ⟨hd, hm⟩
      have hs0 : s.2.info.m = 0 := le_antisymm (not_lt.1 hm) (h0 s (List.mem_of_find?_eq_some hs))
      have w : SameWeight (Owner.masses o.shapes) (Owner.masses (Owner.swapRemove i o.shapes)) :=
        (SameWeight.of_perm (hp.symm.map _)).trans (SameWeight.massless _ hs0 _)
      exact weighed_same h w hd hpos
  · exact ⟨h, hk⟩

theorem weighed_step (M : Mth K) (inf pi : K) (hinf : 0 < inf) (o : Owner K) (op : Owner.Op K) (hop : MassOpOk o op) (h : Weighed inf o) (hk : (o.shapes.map Prod.fst).Nodup)
    (h0 : ∀ s ∈ o.shapes, 0 ≤ s.2.info.m) (h1 : ∀ s ∈ (o.step M inf pi op).shapes, 0 ≤ s.2.info.m) :
    Weighed inf (o.step M inf pi op) ∧ ((o.step M inf pi op).shapes.map Prod.fst).Nodup := by
  cases op with
  | attachCircle k r c => exact weighed_attach M inf o k _ h hk hop h0 rfl
  | attachSegment k a b r => exact weighed_attach M inf o k _ h hk hop h0 rfl
  | attachPoly k vs r => exact weighed_attach M inf o k _ h hk hop h0 rfl
  | remove k => exact weighed_remove M inf o k h hk h0
  | setMass k m =>
    refine ⟨weighed_accumulate M inf _ h1, ?_⟩
    simp only [Owner.step, Owner.setMass, Owner.accumulate]
    rw [keys_change]; exact hk
  | setDensity k d =>
    simp only [Owner.step, Owner.setDensity] at h1 ⊢
    cases hf : o.shapes.find? (fun s => s.1 = k) with
    | none => exact ⟨h, hk⟩
    | some s =>
      simp only [hf] at h1
      refine ⟨weighed_accumulate M inf _ h1, ?_⟩
      simp only [Owner.setMass, Owner.accumulate]
      rw [keys_change]; exact hk
  | setRadius k r => exact weighed_reshape M inf pi o k _ h hk h0
  | setEndpoints k a b => exact weighed_reshape M inf pi o k _ h hk h0
  | vertsRaw k vs => exact weighed_reshape M inf pi o k _ h hk h0
  | vertsHull k vs t =>
    simp only [Owner.step]
    split
    · exact weighed_reshape M inf pi o k _ h hk h0
    · exact ⟨h, hk⟩
  | verts k vs =>
    refine ⟨?_, by simp only [Owner.step]; rw [keys_change]; exact hk⟩
    have e : Owner.masses (Owner.change k (fun s => { s with cls := Owner.withVerts M vs s.cls }) o.shapes) = Owner.masses o.shapes := by
      unfold Owner.masses Owner.change
      rw [List.map_map]
      refine List.map_congr_left fun s _ => ?_
      simp only [Function.comp_apply]
      split <;> rfl
    exact weighed_same h (by rw [e]; exact SameWeight.refl _)
  | setType t =>
    refine ⟨?_, hk⟩
    simp only [Owner.step]
    unfold Body.setType
    by_cases ht : o.body.type inf = t
    · rw [if_pos ht]; exact h
    · rw [if_neg ht]
      by_cases hd : t = .dynamic
      · simp only [if_pos hd]
        exact weighed_accumulate M inf ⟨_, o.shapes⟩ h0
      · simp only [if_neg hd]
        intro hdyn
        exfalso
        revert hdyn
        simp only [Body.type, if_true]
        split <;> split <;> simp
  | move op =>
    refine ⟨?_, hk⟩
    obtain ⟨m1, m2, m3, m4, m5, m6⟩ := moves_keep M inf o.body op hop
    intro hd hp
    have hd' : o.body.type inf = .dynamic := by
      have : (o.body.step M inf op).type inf = .dynamic := hd
      rwa [Body.type, m1, m6] at this
    obtain ⟨c1, c2, c3, c4, c5⟩ := h hd' hp
    exact ⟨m1.trans c1, m3.trans c2, m2.trans c3, m4.trans c4, m5.trans c5⟩

/-- **C96.** After any history of making, removing and reshaping shapes, setting their masses and densities, changing the body's type and moving it, a dynamic body with a shape that
has mass has exactly the mass, the centre of gravity, the moment and their inverses of its shapes taken together. -/
theorem C96_composite (M : Mth K) (inf pi : K) (hinf : 0 < inf) (b : Body K) (ops : List (Owner.Op K)) (hops : MassOps M inf pi ⟨b, []⟩ ops) :
    Weighed inf (Owner.run M inf pi ⟨b, []⟩ ops) := by
  suffices H : ∀ (ops : List (Owner.Op K)) (o : Owner K), MassOps M inf pi o ops → Weighed inf o → (o.shapes.map Prod.fst).Nodup → (∀ s ∈ o.shapes, 0 ≤ s.2.info.m) →
      Weighed inf (Owner.run M inf pi o ops) from
    H ops ⟨b, []⟩ hops (fun _ hp => by simp [Owner.masses, massSum] at hp) (by simp) (by simp)
  intro ops
  induction ops with
  | nil => intro o _ h _ _; exact h
  | cons op ops ih =>
    intro o hops h hk h0
    obtain ⟨hop, h1, hrest⟩ := hops
    obtain ⟨w, k'⟩ := weighed_step M inf pi hinf o op hop h hk h0 h1
    exact ih _ hrest w k' h1

/-! ### The mass information of a shape -/

namespace Spec
/-- The mass information is the one of the geometry. -/
def FitsShape (M : Mth K) (pi : K) (s : MShape K) : Prop := s.info = s.cls.massInfo M pi s.info.m
/-- Everything but the exported `SetVerts`. -/
def Informs : Owner.Op K → Prop
  | .verts _ _ => False
  | _ => True
end Spec

theorem massInfo_set (M : Mth K) (pi m m' : K) (c : Cls K) : { c.massInfo M pi m with m := m' } = c.massInfo M pi m' := by cases c <;> rfl

theorem poly_fits (M : Mth K) (pi : K) (vs : List (V2 K)) (r : K) : FitsShape M pi (MShape.polyRaw M pi vs r) := by
  show polyMassInfo M pi 0 vs r = polyMassInfo M pi 0 ((setVertsGo M _ vs).map Plane.v0) r
  rw [setVertsGo_verts]

/-- **C96.** After any history without `SetVerts` the moment, the area and the centre of every shape are those of its present geometry, with the mass last set. -/
theorem C96_informed (M : Mth K) (inf pi : K) (b : Body K) (ops : List (Owner.Op K)) (hops : ∀ op ∈ ops, Informs op) :
    ∀ s ∈ (Owner.run M inf pi ⟨b, []⟩ ops).shapes, FitsShape M pi s.2 := by
  suffices H : ∀ (ops : List (Owner.Op K)) (o : Owner K), (∀ op ∈ ops, Informs op) → (∀ s ∈ o.shapes, FitsShape M pi s.2) → ∀ s ∈ (Owner.run M inf pi o ops).shapes, FitsShape M pi s.2 from
    H ops ⟨b, []⟩ hops (by simp)
  intro ops
  induction ops with
  | nil => intro o _ h; exact h
  | cons op ops ih =>
    intro o hops h
    refine ih _ (fun x hx => hops x (by simp [hx])) ?_
    have hacc : ∀ (o : Owner K), (o.accumulate M inf).shapes = o.shapes := fun _ => rfl
    have happ : ∀ k (t : MShape K), FitsShape M pi t → ∀ s ∈ (o.attach M inf k t).shapes, FitsShape M pi s.2 := by
      intro k t ht s hs
      have : s ∈ o.shapes ++ [(k, t)] := by
        unfold Owner.attach at hs
        simp only at hs
        split at hs <;> exact hs
      rcases List.mem_append.1 this with hs | hs
      · exact h s hs
      · simp only [List.mem_singleton] at hs; rw [hs]; exact ht
    have hre : ∀ k g, ∀ s ∈ (o.reshape M inf pi k g).shapes, FitsShape M pi s.2 := by
      intro k g s hs
      unfold Owner.reshape at hs
      split at hs
      · have : s ∈ Owner.change k (fun s => (⟨g s.cls, (g s.cls).massInfo M pi s.info.m⟩ : MShape K)) o.shapes := by
          simp only at hs; split at hs <;> exact hs
        rcases mem_change this with hs | ⟨t, ht, rfl⟩
        · exact h s hs
        · have hmi : ∀ (c : Cls K) m, (c.massInfo M pi m).m = m := fun c m => by cases c <;> rfl
          simp only [FitsShape, hmi]
      · exact h s hs
    have hset : ∀ k m, ∀ s ∈ (o.setMass M inf k m).shapes, FitsShape M pi s.2 := by
      intro k m s hs
      have : s ∈ Owner.change k (fun s => ({ s with info := { s.info with m := m } } : MShape K)) o.shapes := hs
      rcases mem_change this with hs | ⟨t, ht, rfl⟩
      · exact h s hs
      · show ({ t.2.info with m := m } : ShapeMass K) = t.2.cls.massInfo M pi m
        rw [h t ht]
        exact massInfo_set M pi _ m _
    cases op with
    | attachCircle k r c => exact happ k _ rfl
    | attachSegment k a b r => exact happ k _ rfl
    | attachPoly k vs r => exact happ k _ (poly_fits M pi vs r)
    | remove k =>
      intro s hs
      simp only [Owner.step, Owner.remove] at hs
      split at hs
      · rename_i i x hi hx
        obtain ⟨hlt, -⟩ := find_findIdx _ _ _ _ hi hx
        have hp := swapRemove_perm o.shapes i hlt
        refine h s (hp.subset (List.mem_cons_of_mem _ ?_))
        split at hs <;> exact hs
      · exact h s hs
    | setMass k m => exact hset k m
    | setDensity k d =>
      simp only [Owner.step, Owner.setDensity]
      split
      · exact hset k _
      · exact h
    | setRadius k r => exact hre k _
    | setEndpoints k a b => exact hre k _
    | vertsRaw k vs => exact hre k _
    | vertsHull k vs t =>
      simp only [Owner.step]
      split
      · exact hre k _
      · exact h
    | verts k vs => exact absurd (hops (.verts k vs) (by simp)) (by simp [Informs])
    | setType t => exact h
    | move op => exact h

/-- **C96.** `Density` returns what `SetDensity` set, if the shape has an area. -/
theorem C96_density (M : Mth K) (inf : K) (o : Owner K) (k : Nat) (d : K) (s : Nat × MShape K) (hs : o.shapes.find? (fun s => s.1 = k) = some s) (ha : s.2.info.area ≠ 0) :
    ∃ s', (o.setDensity M inf k d).shapes.find? (fun s => s.1 = k) = some s' ∧ s'.2.cls = s.2.cls ∧ s'.2.info.m / s'.2.info.area = d := by
  unfold Owner.setDensity
  rw [hs]
  refine ⟨(s.1, { s.2 with info := { s.2.info with m := d * s.2.info.area } }), ?_, rfl, by simp only; field_simp⟩
  simp only [Owner.setMass, Owner.accumulate]
  generalize o.shapes = l at hs
  induction l with
  | nil => simp at hs
  | cons x l ih =>
    by_cases hx : x.1 = k
    · rw [List.find?_cons_of_pos (by simpa using hx), Option.some.injEq] at hs
      subst hs
      simp only [Owner.change, List.map_cons, if_pos hx]
      rw [List.find?_cons_of_pos (by simpa using hx)]
    · rw [List.find?_cons_of_neg (by simpa using hx)] at hs
      have := ih hs
      simp only [Owner.change, List.map_cons, if_neg hx]
      rw [List.find?_cons_of_neg (by simpa using hx)]
      exact this

/-! ### Where it does not hold -/

def exSquareVerts (a : ℚ) : List (V2 ℚ) := [⟨-a, -a⟩, ⟨a, -a⟩, ⟨a, a⟩, ⟨-a, a⟩]

/-- A dynamic body of explicit mass 5, a polygon of mass 3 and a disc without mass. -/
def exOwnerOps : List (Owner.Op ℚ) := [.attachPoly 0 (exSquareVerts 1) 0, .attachCircle 1 2 ⟨1, 1⟩, .setMass 0 3]

/-- **C96.** The exported `SetVerts` leaves the old area, moment and centre behind. -/
theorem C96_verts_stale : ¬ FitsShape gridMth 3 (((Owner.run gridMth 1000000 3 ⟨Body.new gridMth 5 5, []⟩ (exOwnerOps ++ [.verts 0 (exSquareVerts 2)])).shapes.headD (0, MShape.circle gridMth 3 1 V2.zero)).2) := by
  unfold FitsShape
  decide +kernel

/-- **C96.** Taking the last shape with mass away does not give the mass set on the body back: it has mass 0 (and in Go an infinite inverse mass). -/
theorem C96_last_removed : (Owner.run gridMth 1000000 3 ⟨Body.new gridMth 5 5, []⟩ exOwnerOps).body.m = 3 ∧
    (Owner.run gridMth 1000000 3 ⟨Body.new gridMth 5 5, []⟩ (exOwnerOps ++ [.remove 0])).body.m = 0 := by
  decide +kernel

/-- A history meeting the hypotheses of `C96_composite`, ending in a body of mass 7 with two shapes that have mass. -/
example : MassOps gridMth (1000000 : ℚ) 3 ⟨Body.new gridMth 5 5, []⟩ (exOwnerOps ++ [.setMass 1 4, .setRadius 1 1, .setType .kinematic, .setType .dynamic, .move (.setPosition ⟨1, 1⟩)]) ∧
    (Owner.run gridMth 1000000 3 ⟨Body.new gridMth 5 5, []⟩ (exOwnerOps ++ [.setMass 1 4, .setRadius 1 1, .setType .kinematic, .setType .dynamic, .move (.setPosition ⟨1, 1⟩)])).body.m = 7 := by
  constructor
  · simp only [exOwnerOps, List.cons_append, List.nil_append, MassOps, MassOpOk, Moves]
    decide +kernel
  · decide +kernel

end Cm
