import Verif.Props.Rest
import Verif.Props.WorldContacts
/-! # C119: a heap that rests in equilibrium stays at rest, in the whole simulation -/
set_option linter.unusedSectionVars false
set_option linter.unusedSimpArgs false
set_option linter.unusedVariables false

namespace Cm
open Spec
variable {K : Type} [Field K] [LinearOrder K] [IsStrictOrderedRing K]

/-! ## The same collisions in another order, some with their bodies exchanged -/

/-- The same load, or the same with the two bodies exchanged. -/
structure AlikeLoad (x y : Link (Arbiter K)) : Prop where
  old : y.it.state ≠ .first
  u : y.it.u = x.it.u
  still : x.it.surfaceVr = ⟨0, 0⟩ → y.it.surfaceVr = ⟨0, 0⟩
  same : (y.ia = x.ia ∧ y.ib = x.ib ∧ y.it.normal = x.it.normal ∧
      List.Forall₂ (fun c d : Contact K => d.r1 = c.r1 ∧ d.r2 = c.r2 ∧ d.jnAcc = c.jnAcc ∧ d.jtAcc = c.jtAcc) x.it.contacts y.it.contacts) ∨
    (y.ia = x.ib ∧ y.ib = x.ia ∧ y.it.normal = ⟨-x.it.normal.x, -x.it.normal.y⟩ ∧
      List.Forall₂ (fun c d : Contact K => d.r1 = c.r2 ∧ d.r2 = c.r1 ∧ d.jnAcc = c.jnAcc ∧ d.jtAcc = c.jtAcc) x.it.contacts y.it.contacts)

theorem sumX_append (k : Nat) (l l' : List (Shove K)) : sumX k (l ++ l') = sumX k l + sumX k l' := by simp [sumX]
theorem sumY_append (k : Nat) (l l' : List (Shove K)) : sumY k (l ++ l') = sumY k l + sumY k l' := by simp [sumY]
theorem sumSpin_append (k : Nat) (l l' : List (Shove K)) : sumSpin k (l ++ l') = sumSpin k l + sumSpin k l' := by simp [sumSpin]

theorem alike_sums {x y : Link (Arbiter K)} (h : AlikeLoad x y) (k : Nat) : sumX k (contactPushes y) = sumX k (contactPushes x) ∧
    sumY k (contactPushes y) = sumY k (contactPushes x) ∧ sumSpin k (contactPushes y) = sumSpin k (contactPushes x) := by
  rcases h.same with ⟨h1, h2, h3, h4⟩ | ⟨h1, h2, h3, h4⟩
  · unfold contactPushes
    rw [h3]
    generalize x.it.contacts = cs at h4 ⊢
    generalize y.it.contacts = ds at h4 ⊢
    induction h4 with
    | nil => exact ⟨rfl, rfl, rfl⟩
    | cons e _ ih =>
      obtain ⟨e1, e2, e3, e4⟩ := e
      simp only [List.flatMap_cons, sumX_append, sumY_append, sumSpin_append, ih.1, ih.2.1, ih.2.2, add_left_inj]
      simp only [pushes, e1, e2, e3, e4, h1, h2]
      trivial
  · unfold contactPushes
    rw [h3]
    generalize x.it.contacts = cs at h4 ⊢
    generalize y.it.contacts = ds at h4 ⊢
    induction h4 with
    | nil => exact ⟨rfl, rfl, rfl⟩
    | cons e _ ih =>
      obtain ⟨e1, e2, e3, e4⟩ := e
      simp only [List.flatMap_cons, sumX_append, sumY_append, sumSpin_append, ih.1, ih.2.1, ih.2.2, add_left_inj]
      simp only [pushes, e1, e2, e3, e4, h1, h2, sumX, sumY, sumSpin, List.map_cons, List.map_nil, List.sum_cons, List.sum_nil]
      refine ⟨?_, ?_, ?_⟩ <;> split_ifs <;> ring

theorem alike_bears {slop : K} {bs : Nat → Body K} {x y : Link (Arbiter K)} (h : AlikeLoad x y) (hx : Bears slop (bs x.ia) (bs x.ib) x.it) :
    Bears slop (bs y.ia) (bs y.ib) y.it := by
  have key : ∀ {R : Contact K → Contact K → Prop} {xs ys : List (Contact K)}, List.Forall₂ R xs ys → ∀ d ∈ ys, ∃ c ∈ xs, R c d := fun h => forall2_mem h
  rcases h.same with ⟨h1, h2, h3, h4⟩ | ⟨h1, h2, h3, h4⟩
  · refine ⟨h.old, h.still hx.still, ?_, ?_, ?_⟩
    · intro d hd; obtain ⟨c, hc, e1, e2, e3, e4⟩ := key h4 d hd; rw [e3]; exact hx.push c hc
    · intro d hd; obtain ⟨c, hc, e1, e2, e3, e4⟩ := key h4 d hd; rw [e3, e4, h.u]; exact hx.friction c hc
    · intro d hd; obtain ⟨c, hc, e1, e2, e3, e4⟩ := key h4 d hd; rw [e1, e2, h1, h2, h3]; exact hx.depth c hc
  · refine ⟨h.old, h.still hx.still, ?_, ?_, ?_⟩
    · intro d hd; obtain ⟨c, hc, e1, e2, e3, e4⟩ := key h4 d hd; rw [e3]; exact hx.push c hc
    · intro d hd; obtain ⟨c, hc, e1, e2, e3, e4⟩ := key h4 d hd; rw [e3, e4, h.u]; exact hx.friction c hc
    · intro d hd; obtain ⟨c, hc, e1, e2, e3, e4⟩ := key h4 d hd
      rw [e1, e2, h1, h2, h3]
      have := hx.depth c hc
      linarith [this]

theorem flatMap_sums {α : Type} (f : (List (Shove K)) → K) (h0 : f [] = 0) (hf : ∀ a b, f (a ++ b) = f a + f b) (g : α → List (Shove K)) (ls : List α) :
    f (ls.flatMap g) = (ls.map fun l => f (g l)).sum := by
  induction ls with
  | nil => simpa using h0
  | cons l ls ih => simp only [List.flatMap_cons, hf, ih, List.map_cons, List.sum_cons]

theorem Spec.Equilibrium.again {M : Mth K} {par : Params K} {dt : K} {dyn : List Nat} {bs : Nat → Body K} {A A1 A2 : List (Link (Arbiter K))}
    {J J' : List (Link (Joint K))} (h : Equilibrium M par dt dyn bs A J) (hA : List.Forall₂ AlikeLoad A A1) (hp : A1.Perm A2)
    (hJ : List.Forall₂ (SameLink SameHold) J J') : Equilibrium M par dt dyn bs A2 J' := by
  have hm : ∀ l ∈ A2, ∃ x ∈ A, AlikeLoad x l := fun l m => forall2_mem hA l (hp.mem_iff.mpr m)
  refine ⟨h.rest, h.moved, h.fixed, ?_, ?_, ?_, ?_, ?_⟩
  · intro l m
    obtain ⟨x, mx, r⟩ := hm l m
    rcases r.same with ⟨h1, h2, -⟩ | ⟨h1, h2, -⟩
    · rw [h1, h2]; exact h.arbApart x mx
    · rw [h1, h2]; exact (h.arbApart x mx).symm
  · intro l m; obtain ⟨x, mx, r1, r2, r3⟩ := forall2_mem hJ l m; rw [r1, r2]; exact h.jointApart x mx
  · intro l m; obtain ⟨x, mx, r⟩ := hm l m; exact alike_bears r (h.bears x mx)
  · intro l m; obtain ⟨x, mx, r1, r2, r3⟩ := forall2_mem hJ l m; rw [r1, r2]; exact hold_carries r3 (h.carries x mx)
  · intro k hk
    have hb := h.balance k hk
    dsimp only at hb ⊢
    rw [forall2_flatMap (jointPushes bs) (fun x y r => jointPushes_same bs r) hJ]
    have key : ∀ (f : List (Shove K) → K), f [] = 0 → (∀ a b, f (a ++ b) = f a + f b) → (∀ x y, AlikeLoad x y → f (contactPushes y) = f (contactPushes x)) →
        f (A2.flatMap contactPushes) = f (A.flatMap contactPushes) := by
      intro f f0 f1 f2
      rw [flatMap_sums f f0 f1, flatMap_sums f f0 f1, ← (hp.map fun l => f (contactPushes l)).sum_eq]
      congr 1
      clear hm hb hp h
      induction hA with
      | nil => rfl
      | cons e _ ih => simp only [List.map_cons, f2 _ _ e, ih]
    have kx := key (sumX k) rfl (sumX_append k) (fun x y r => (alike_sums r k).1)
    have ky := key (sumY k) rfl (sumY_append k) (fun x y r => (alike_sums r k).2.1)
    have ks := key (sumSpin k) rfl (sumSpin_append k) (fun x y r => (alike_sums r k).2.2)
    simp only [sumX_append, sumY_append, sumSpin_append, kx, ky, ks] at hb ⊢
    exact hb

/-- Two lists without repetition up to an equivalence, with the same classes, match. -/
theorem match_up {α : Type} (E : α → α → Prop) (hs : ∀ a b, E a b → E b a) (ht : ∀ a b c, E a b → E b c → E a c) : ∀ xs ys : List α,
    xs.Pairwise (fun a b => ¬ E a b) → ys.Pairwise (fun a b => ¬ E a b) → (∀ x ∈ xs, ∃ y ∈ ys, E x y) → (∀ y ∈ ys, ∃ x ∈ xs, E x y) →
    ∃ zs, List.Forall₂ (fun a b => E a b) xs zs ∧ zs.Perm ys := by
  intro xs
  induction xs with
  | nil =>
    intro ys _ _ _ h
    cases ys with
    | nil => exact ⟨[], .nil, .refl _⟩
    | cons y ys => obtain ⟨x, m, -⟩ := h y List.mem_cons_self; cases m
  | cons x xs ih =>
    intro ys hx hy h1 h2
    obtain ⟨y, my, exy⟩ := h1 x List.mem_cons_self
    obtain ⟨s, t, rfl⟩ := List.append_of_mem my
    obtain ⟨px, px'⟩ := List.pairwise_cons.mp hx
    have hperm : (s ++ y :: t).Perm (y :: (s ++ t)) := List.perm_middle
    have hy' : (y :: (s ++ t)).Pairwise (fun a b => ¬ E a b) := by
      refine (hperm.pairwise_iff ?_).mp hy
      intro a b hn e; exact hn (hs _ _ e)
    obtain ⟨py, py'⟩ := List.pairwise_cons.mp hy'
    have k1 : ∀ a ∈ xs, ∃ b ∈ s ++ t, E a b := by
      intro a ma
      obtain ⟨b, mb, e⟩ := h1 a (List.mem_cons_of_mem _ ma)
      rcases List.mem_cons.mp (hperm.mem_iff.mp mb) with rfl | mb'
      · exact absurd (ht _ _ _ exy (hs _ _ e)) (px a ma)
      · exact ⟨b, mb', e⟩
    have k2 : ∀ b ∈ s ++ t, ∃ a ∈ xs, E a b := by
      intro b mb
      obtain ⟨a, ma, e⟩ := h2 b (hperm.mem_iff.mpr (List.mem_cons_of_mem _ mb))
      rcases List.mem_cons.mp ma with rfl | ma'
      · exact absurd (ht _ _ _ (hs _ _ exy) e) (py b mb)
      · exact ⟨a, ma', e⟩
    obtain ⟨zs, z1, z2⟩ := ih (s ++ t) px' py' k1 k2
    exact ⟨y :: zs, .cons exy z1, (List.Perm.cons y z2).trans hperm.symm⟩

/-! ## The narrow phase asked again -/

namespace Spec
/-- Two balls do not have the same centre. -/
def Eccentric (t u : Transform K) : Figure K → Figure K → Prop
  | .ball _ c, .ball _ c' => t.apply c ≠ u.apply c'
  | _, _ => True
end Spec

/-- The same answer, or the same with the two shapes exchanged: one contact, without features. -/
def AlikeInfo (p p' : Nat × Nat) (info info' : Info K) : Prop :=
  ∃ c : Pushed K, c.hash = 0 ∧ info.contacts = [c] ∧
    ((info'.pair p' = info.pair p ∧ info'.n = info.n ∧ info'.contacts = [c]) ∨
     (info'.pair p' = ((info.pair p).2, (info.pair p).1) ∧ info'.n = ⟨-info.n.x, -info.n.y⟩ ∧ info'.contacts = [⟨c.p2, c.p1, c.hash⟩]))

theorem ball_ball (M : Mth K) (inf tiny : K) (t u : Transform K) (r r' : K) (c c' : V2 K) (h1 h2 : BitVec 64) (id : Nat) :
    collide M inf tiny (cachedShape inf t ((Figure.ball r c).made M) h1) (cachedShape inf u ((Figure.ball r' c').made M) h2) id =
      some (circleToCircle M ⟨c, t.apply c, r⟩ ⟨c', u.apply c', r'⟩ ⟨false, id, V2.zero, []⟩) := rfl

theorem ball_rod (M : Mth K) (inf tiny : K) (t u : Transform K) (r r' : K) (c a b : V2 K) (h1 h2 : BitVec 64) (id : Nat) :
    collide M inf tiny (cachedShape inf t ((Figure.ball r c).made M) h1) (cachedShape inf u ((Figure.rod a b r').made M) h2) id =
      some (circleToSegment M ⟨c, t.apply c, r⟩ ((Segment.new M a b r').cache u).1 ⟨u.a, u.b⟩ ⟨false, id, V2.zero, []⟩) := rfl

theorem rod_ball (M : Mth K) (inf tiny : K) (t u : Transform K) (r r' : K) (c a b : V2 K) (h1 h2 : BitVec 64) (id : Nat) :
    collide M inf tiny (cachedShape inf u ((Figure.rod a b r').made M) h2) (cachedShape inf t ((Figure.ball r c).made M) h1) id =
      some (circleToSegment M ⟨c, t.apply c, r⟩ ((Segment.new M a b r').cache u).1 ⟨u.a, u.b⟩ ⟨true, id, V2.zero, []⟩) := rfl

theorem segment_one (M : Mth K) (c : Circle K) (sg : Segment K) (rot : V2 K) (b : Bool) (id : Nat)
    (h : (circleToSegment M c sg rot ⟨b, id, V2.zero, []⟩).contacts ≠ []) : ∃ q : Pushed K, ∃ n : V2 K, q.hash = 0 ∧ ∀ b id,
      (circleToSegment M c sg rot ⟨b, id, V2.zero, []⟩).contacts = [q] ∧ (circleToSegment M c sg rot ⟨b, id, V2.zero, []⟩).n = n ∧
      (circleToSegment M c sg rot ⟨b, id, V2.zero, []⟩).swapped = b := by
  have ind : ∀ b' id', (circleToSegment M c sg rot ⟨b', id', V2.zero, []⟩).contacts = (circleToSegment M c sg rot ⟨b, id, V2.zero, []⟩).contacts ∧
      (circleToSegment M c sg rot ⟨b', id', V2.zero, []⟩).n = (circleToSegment M c sg rot ⟨b, id, V2.zero, []⟩).n ∧
      (circleToSegment M c sg rot ⟨b', id', V2.zero, []⟩).swapped = b' := by
    intro b' id'
    unfold circleToSegment
    dsimp only
    split <;> exact ⟨rfl, rfl, rfl⟩
  have one : ∃ q : Pushed K, q.hash = 0 ∧ (circleToSegment M c sg rot ⟨b, id, V2.zero, []⟩).contacts = [q] := by
    unfold circleToSegment at h ⊢
    dsimp only at h ⊢
    split at h
    · rename_i h1
      rw [if_pos h1]
      dsimp only at h ⊢
      generalize (if M.sqrt _ ≠ 0 then _ else sg.tn) = n at h ⊢
      split at h
      · rename_i h2
        rw [if_pos h2]
        exact ⟨_, rfl, rfl⟩
      · exact absurd rfl h
    · exact absurd rfl h
  obtain ⟨q, hq, e⟩ := one
  exact ⟨q, _, hq, fun b' id' => ⟨(ind b' id').1.trans e, (ind b' id').2.1, (ind b' id').2.2⟩⟩

theorem circle_again {M : Mth K} (hM : M.Lawful) (c c' : Circle K) (hne : c.tc ≠ c'.tc) (id : Nat) (h : (circleToCircle M c c' ⟨false, id, V2.zero, []⟩).contacts ≠ []) :
    ∃ q : Pushed K, ∃ n : V2 K, q.hash = 0 ∧ ∀ id,
      ((circleToCircle M c c' ⟨false, id, V2.zero, []⟩).contacts = [q] ∧ (circleToCircle M c c' ⟨false, id, V2.zero, []⟩).n = n ∧
        (circleToCircle M c c' ⟨false, id, V2.zero, []⟩).swapped = false) ∧
      ((circleToCircle M c' c ⟨false, id, V2.zero, []⟩).contacts = [⟨q.p2, q.p1, q.hash⟩] ∧ (circleToCircle M c' c ⟨false, id, V2.zero, []⟩).n = ⟨-n.x, -n.y⟩ ∧
        (circleToCircle M c' c ⟨false, id, V2.zero, []⟩).swapped = false) := by
  have hl : (c.tc.sub c'.tc).lengthSq = (c'.tc.sub c.tc).lengthSq := by simp only [V2.lengthSq, V2.sub, V2.dot]; ring
  have hr : c'.radius + c.radius = c.radius + c'.radius := add_comm _ _
  have hd : M.sqrt (c'.tc.sub c.tc).lengthSq ≠ 0 := by
    intro e
    have h0 : 0 ≤ (c'.tc.sub c.tc).lengthSq := by simp only [V2.lengthSq, V2.sub, V2.dot]; nlinarith [sq_nonneg (c'.tc.x - c.tc.x), sq_nonneg (c'.tc.y - c.tc.y)]
    have h1 := hM.sqrt_sq _ h0
    rw [e] at h1
    have h2 : (c'.tc.x - c.tc.x) * (c'.tc.x - c.tc.x) + (c'.tc.y - c.tc.y) * (c'.tc.y - c.tc.y) = 0 := by
      have := h1.symm
      simp only [V2.lengthSq, V2.sub, V2.dot] at this
      linear_combination this
    have hx : c'.tc.x - c.tc.x = 0 := by nlinarith [mul_self_nonneg (c'.tc.x - c.tc.x), mul_self_nonneg (c'.tc.y - c.tc.y)]
    have hy : c'.tc.y - c.tc.y = 0 := by nlinarith [mul_self_nonneg (c'.tc.x - c.tc.x), mul_self_nonneg (c'.tc.y - c.tc.y)]
    exact hne (V2.ext (by linarith) (by linarith))
  unfold circleToCircle at h ⊢
  dsimp only at h ⊢
  rw [hl, hr]
  split at h
  · rename_i h1
    rw [if_pos hd, if_pos hd]
    refine ⟨⟨c.tc.add (((c'.tc.sub c.tc).scale (1 / M.sqrt (c'.tc.sub c.tc).lengthSq)).scale c.radius),
      c'.tc.add (((c'.tc.sub c.tc).scale (1 / M.sqrt (c'.tc.sub c.tc).lengthSq)).scale (-c'.radius)), 0⟩, (c'.tc.sub c.tc).scale (1 / M.sqrt (c'.tc.sub c.tc).lengthSq), rfl, fun id => ?_⟩
    rw [if_pos h1, if_pos h1]
    refine ⟨⟨rfl, rfl, rfl⟩, ?_, ?_, rfl⟩
    · simp only [V2.add, V2.scale, V2.sub, List.cons.injEq, and_true, Pushed.mk.injEq, V2.mk.injEq]
      refine ⟨⟨?_, ?_⟩, ⟨?_, ?_⟩⟩ <;> ring
    · simp only [V2.scale, V2.sub, V2.mk.injEq]
      constructor <;> ring
  · exact absurd rfl h

theorem easy_again {M : Mth K} (hM : M.Lawful) (inf tiny : K) (t u : Transform K) {s s' : Figure K} (he : Figure.Easy s s') (hc : Eccentric t u s s')
    (h1 h2 : BitVec 64) (i j id id' : Nat) (info info' : Info K)
    (e : collide M inf tiny (cachedShape inf t (s.made M) h1) (cachedShape inf u (s'.made M) h2) id = some info) (hne : info.contacts ≠ []) :
    (collide M inf tiny (cachedShape inf t (s.made M) h1) (cachedShape inf u (s'.made M) h2) id' = some info' → AlikeInfo (i, j) (i, j) info info') ∧
    (collide M inf tiny (cachedShape inf u (s'.made M) h2) (cachedShape inf t (s.made M) h1) id' = some info' → AlikeInfo (i, j) (j, i) info info') := by
  cases s with
  | ball r c =>
    cases s' with
    | ball r' c' =>
      rw [ball_ball, ball_ball] at *
      obtain rfl := Option.some.inj e
      obtain ⟨q, n, hq, H⟩ := circle_again hM ⟨c, t.apply c, r⟩ ⟨c', u.apply c', r'⟩ hc id hne
      obtain ⟨⟨a1, a2, a3⟩, -⟩ := H id
      obtain ⟨⟨b1, b2, b3⟩, d1, d2, d3⟩ := H id'
      constructor
      · intro e'
        obtain rfl := Option.some.inj e'
        exact ⟨q, hq, a1, .inl ⟨by unfold Info.pair; rw [a3, b3], by rw [a2, b2], b1⟩⟩
      · intro e'
        obtain rfl := Option.some.inj e'
        exact ⟨q, hq, a1, .inr ⟨by unfold Info.pair; rw [a3, d3]; rfl, by rw [a2, d2], d1⟩⟩
    | rod a b r' =>
      rw [ball_rod, rod_ball] at *
      obtain rfl := Option.some.inj e
      obtain ⟨q, n, hq, H⟩ := segment_one M _ _ _ _ _ hne
      obtain ⟨a1, a2, a3⟩ := H false id
      obtain ⟨b1, b2, b3⟩ := H false id'
      obtain ⟨d1, d2, d3⟩ := H true id'
      constructor
      · intro e'
        obtain rfl := Option.some.inj e'
        exact ⟨q, hq, a1, .inl ⟨by unfold Info.pair; rw [a3, b3], by rw [a2, b2], b1⟩⟩
      · intro e'
        obtain rfl := Option.some.inj e'
        exact ⟨q, hq, a1, .inl ⟨by unfold Info.pair; rw [a3, d3]; rfl, by rw [a2, d2], d1⟩⟩
    | poly v r' => exact absurd he (fun h => h)
  | rod a b r =>
    cases s' with
    | ball r' c' =>
      rw [rod_ball, ball_rod] at *
      obtain rfl := Option.some.inj e
      obtain ⟨q, n, hq, H⟩ := segment_one M _ _ _ _ _ hne
      obtain ⟨a1, a2, a3⟩ := H true id
      obtain ⟨b1, b2, b3⟩ := H false id'
      obtain ⟨d1, d2, d3⟩ := H true id'
      constructor
      · intro e'
        obtain rfl := Option.some.inj e'
        exact ⟨q, hq, a1, .inl ⟨by unfold Info.pair; rw [a3, d3], by rw [a2, d2], d1⟩⟩
      · intro e'
        obtain rfl := Option.some.inj e'
        exact ⟨q, hq, a1, .inl ⟨by unfold Info.pair; rw [a3, b3]; rfl, by rw [a2, b2], b1⟩⟩
    | rod a' b' r' => exact absurd he (fun h => h)
    | poly v r' => exact absurd he (fun h => h)
  | poly v r => cases s' <;> exact absurd he (fun h => h)

/-! ## One step -/

/-- The arbiter the solver gets for a collision, with the call it comes from. -/
theorem found_call (M : Mth K) (sc : Scene K) (hper : 1 ≤ sc.persistence) (inp : Tick K) (w : World K) (h1 : OneEach w.cache)
    (hc : (w.calls M sc inp).Pairwise (fun p q => ¬ SameTwo p q)) (ab : Nat × Nat) (hab : ab ∈ (w.found M sc inp).active) :
    ∃ info, ∃ p ∈ w.calls M sc inp, (w.begun M sc inp).hit M sc p = some info ∧ ab = info.pair p ∧
      heldArb ((w.found M sc inp).swept sc).cache ab.1 ab.2 = (w.begun M sc inp).updated sc inp ab info := by
  have hact : (w.found M sc inp).active = (w.calls M sc inp).filterMap ((w.begun M sc inp).solved M sc inp) :=
    ((meets_active M sc inp (w.calls M sc inp) (w.begun M sc inp) hc).1).trans (List.nil_append _)
  rw [hact] at hab
  obtain ⟨p, hp, e⟩ := List.mem_filterMap.1 hab
  obtain ⟨info, hi, rfl, hpass⟩ := solved_pair e
  have hent : (w.begun M sc inp).entry M sc inp p = some ⟨(info.pair p).1, (info.pair p).2, w.stamp + 1, (w.begun M sc inp).updated sc inp (info.pair p) info⟩ := by
    unfold World.entry
    rw [hi]
    simp only [Option.map_some, if_pos hpass]
    rfl
  have hfind := meets_cache M sc inp (w.calls M sc inp) (w.begun M sc inp) hc p hp (info.pair p).1 (info.pair p).2 (info_pair info p)
  rw [hent] at hfind
  have hmem := List.mem_of_find?_eq_some hfind
  have hst : (w.found M sc inp).stamp = w.stamp + 1 := meets_stamp M sc inp _ (w.begun M sc inp)
  have hin : (⟨(info.pair p).1, (info.pair p).2, w.stamp + 1, (w.begun M sc inp).updated sc inp (info.pair p) info⟩ : Held K) ∈ ((w.found M sc inp).swept sc).cache :=
    List.mem_filterMap.2 ⟨_, hmem, keep_new sc hper _ _ hst.symm⟩
  refine ⟨info, p, hp, hi, rfl, ?_⟩
  have hf1 : OneEach (w.found M sc inp).cache := (meets_one M sc inp _ (w.begun M sc inp) (aged_one h1)).1
  have hs1 : OneEach ((w.found M sc inp).swept sc).cache := oneEach_kept hf1 _ fun h o e => ⟨(keep_frame sc _ h o e).1, (keep_frame sc _ h o e).2.1⟩
  have := find_one hs1 hin (p := info.pair p) (.inl rfl)
  unfold heldArb
  rw [this]

theorem hit_collide {M : Mth K} {sc : Scene K} {w : World K} (hb : ∀ i, (w.shapes i).bb.L ≤ (w.shapes i).bb.R ∧ (w.shapes i).bb.B ≤ (w.shapes i).bb.T)
    {p : Nat × Nat} {info : Info K} (h : w.hit M sc p = some info) :
    info.contacts ≠ [] ∧ (sc.figs p.1).body ≠ (sc.figs p.2).body ∧
      ∃ id, collide M sc.par.inf sc.tiny (w.shapes p.1) (w.shapes p.2) id = some info := by
  unfold World.hit at h
  obtain ⟨h1, h2⟩ := Option.filter_eq_some_iff.1 h
  refine ⟨by intro e; rw [e] at h2; simp at h2, ?_⟩
  unfold World.answer at h1
  cases hq : queryReject (fun x => (sc.figs x).body) (fun x => (sc.figs x).filter) (fun x => (w.shapes x).bb) w.barred p.1 p.2 with
  | true => rw [hq] at h1; cases h1
  | false =>
    rw [hq] at h1
    exact ⟨((not_reject _ _ _ hb _ _ _).1 hq).1, _, h1⟩

namespace Spec
/-- A step with the callbacks accepting everything. -/
def Accepting (inp : Tick K) : Prop := (∀ a b, inp.begins a b = true) ∧ ∀ a b, inp.pre a b = true

/-- No collision has been refused. -/
def Unrefused (w : World K) : Prop := ∀ h ∈ w.cache, h.arb.state ≠ .ignore
end Spec

theorem unrefused_state {w : World K} (h : Unrefused w) (ab : Nat × Nat) : stateOf w ab ≠ .ignore := by
  unfold stateOf
  cases e : w.cache.find? (fun o => o.is ab.1 ab.2) with
  | none => simp
  | some o =>
    dsimp only
    split
    · simp
    · exact h o (List.mem_of_find?_eq_some e)

theorem updated_unrefused {sc : Scene K} {inp : Tick K} (ha : Accepting inp) {w : World K} (hw : Unrefused w) (ab : Nat × Nat) (info : Info K) :
    (w.updated sc inp ab info).state ≠ .ignore := by
  have hold : (heldArb w.cache ab.1 ab.2).state ≠ .ignore := by
    unfold heldArb
    cases e : w.cache.find? (fun o => o.is ab.1 ab.2) with
    | none => simp [Arbiter.blank]
    | some o => exact hw o (List.mem_of_find?_eq_some e)
  unfold World.updated
  dsimp only
  rw [if_neg (by rw [ha.1]; simp)]
  simp only [Arbiter.update]
  split
  · simp
  · exact hold

theorem meets_unrefused (M : Mth K) {sc : Scene K} {inp : Tick K} (ha : Accepting inp) (calls : List (Nat × Nat)) : ∀ w : World K, Unrefused w →
    Unrefused (calls.foldl (World.meet M sc inp) w) := by
  induction calls with
  | nil => intro w hw; exact hw
  | cons p calls ih =>
    intro w hw
    rw [List.foldl_cons]
    refine ih _ fun h hh => ?_
    rw [meet_cache] at hh
    cases e : w.entry M sc inp p with
    | none => rw [e] at hh; exact hw h hh
    | some o =>
      rw [e] at hh
      rcases putHeld_mem hh with rfl | hh
      · unfold World.entry at e
        obtain ⟨info, -, rfl⟩ := Option.map_eq_some_iff.1 e
        have := updated_unrefused (sc := sc) ha hw (info.pair p) info
        dsimp only
        split
        · exact this
        · simp only [Arbiter.unused, if_pos this]; simp
      · exact hw h hh

theorem step_unrefused (M : Mth K) {sc : Scene K} {inp : Tick K} (ha : Accepting inp) (h0 : inp.dt ≠ 0) {w : World K} (h1 : OneEach w.cache) (hw : Unrefused w) :
    Unrefused (w.step M sc inp) := by
  have hb : Unrefused (w.begun M sc inp) := by
    intro o ho
    have ho' : o ∈ w.aged := ho
    unfold World.aged at ho'
    obtain ⟨h, hh, rfl⟩ := List.mem_map.1 ho'
    split
    · simp
    · exact hw h hh
  have hf : Unrefused (w.found M sc inp) := meets_unrefused M ha _ _ hb
  obtain ⟨-, -, k3, -⟩ := step_cache M sc inp w h0 h1
  intro o ho
  have : o.outline ∈ ((w.found M sc inp).swept sc).cache.map Held.outline := by rw [← k3]; exact List.mem_map_of_mem ho
  obtain ⟨h, hh, e⟩ := List.mem_map.1 this
  simp only [Held.outline, Prod.mk.injEq] at e
  rw [← e.2.2.2]
  obtain ⟨h2, hh2, e2⟩ := List.mem_filterMap.1 hh
  rcases (keep_frame sc _ h2 h e2).2.2.2 with k | k
  · rw [k]; exact hf h2 hh2
  · rw [k]; simp

theorem wanted_iff {sc : Scene K} {inp : Tick K} (ha : Accepting inp) {w : World K} (hw : Unrefused w) (ab : Nat × Nat) : Wanted sc inp w ab ↔
    (sc.figs ab.1).sensor = false ∧ (sc.figs ab.2).sensor = false ∧
    ¬ ((w.bodies (sc.figs ab.1).body).m = sc.par.inf ∧ (w.bodies (sc.figs ab.2).body).m = sc.par.inf) := by
  unfold Wanted
  constructor
  · rintro ⟨-, -, -, h⟩; exact h
  · intro h; exact ⟨unrefused_state hw ab, fun _ => ha.1 _ _, ha.2 _ _, h⟩

theorem begun_rest {M : Mth K} {sc : Scene K} {inp : Tick K} {w : World K} (hr : ∀ k, AtRest M (w.bodies k)) : (w.begun M sc inp).bodies = w.bodies := by
  simp only [World.begun, SolverState.positions]
  funext k
  split_ifs
  · exact positions_rest (hr k) _
  · rfl

theorem heldArb_same {c : List (Held K)} {p q : Nat × Nat} (h : SameTwo p q) : heldArb c p.1 p.2 = heldArb c q.1 q.2 := by
  unfold heldArb
  have : (fun o : Held K => o.is p.1 p.2) = fun o => o.is q.1 q.2 := funext fun o => is_congr h o
  rw [this]

theorem filed_normal {w : World K} (hf : Filed w) {ab : Nat × Nat} (h : ab ∈ w.active) : stateOf w ab = .normal := by
  obtain ⟨o, ho, e⟩ := hf.held ab h
  unfold stateOf
  rw [find_one hf.one ho (p := ab) (.inl e)]
  dsimp only
  rw [if_pos (by rw [e]; exact h)]

/-- A contact without features found again keeps its impulses. -/
theorem refresh_one (old : List (Contact K)) (d : Contact K) (hd : old.map (fun c => (c.r1, c.r2, c.jnAcc, c.jtAcc, c.hash)) = [(d.r1, d.r2, d.jnAcc, d.jtAcc, 0)])
    (pa pb : V2 K) (q : Pushed K) (hq : q.hash = 0) :
    let c := refreshContact old pa pb q.contact
    c.r1 = q.p1.sub pa ∧ c.r2 = q.p2.sub pb ∧ c.jnAcc = d.jnAcc ∧ c.jtAcc = d.jtAcc ∧ c.hash = 0 := by
  obtain ⟨o, rfl⟩ : ∃ o, old = [o] := by
    have := congrArg List.length hd
    simp only [List.length_map, List.length_cons, List.length_nil] at this
    exact List.length_eq_one_iff.1 this
  simp only [List.map_cons, List.map_nil, List.cons.injEq, and_true, Prod.mk.injEq] at hd
  obtain ⟨-, -, d3, d4, d5⟩ := hd
  simp [refreshContact, copyOld, Pushed.contact, hq, d3, d4, d5]

theorem refresh_frame (old : List (Contact K)) (pa pb : V2 K) (q : Pushed K) (hq : q.hash = 0) :
    (refreshContact old pa pb q.contact).r1 = q.p1.sub pa ∧ (refreshContact old pa pb q.contact).r2 = q.p2.sub pb ∧ (refreshContact old pa pb q.contact).hash = 0 := by
  obtain ⟨c1, c2, c3, -⟩ := copyOld_spec old { q.contact with r1 := q.contact.r1.sub pa, r2 := q.contact.r2.sub pb, jnAcc := 0, jtAcc := 0 }
  unfold refreshContact
  refine ⟨?_, ?_, ?_⟩
  all_goals simp_all [Pushed.contact]

theorem updated_accepting {sc : Scene K} {inp : Tick K} (ha : Accepting inp) (w : World K) (ab : Nat × Nat) (info : Info K) : w.updated sc inp ab info =
    (heldArb w.cache ab.1 ab.2).update (info.contacts.map Pushed.contact) info.n (w.bodies (sc.figs ab.1).body).p (w.bodies (sc.figs ab.2).body).p
      (sc.figs ab.1).surface (sc.figs ab.2).surface (sc.swap ab.1 ab.2) := by
  unfold World.updated
  dsimp only
  rw [if_neg (by rw [ha.1]; simp)]

/-- What the solver does not change of a collision. -/
def Arbiter.setting (a : Arbiter K) : V2 K × K × V2 K × List (V2 K × V2 K × Nat) := (a.normal, a.u, a.surfaceVr, a.contacts.map fun c => (c.r1, c.r2, c.hash))

theorem load_again {sc : Scene K} {inp inp' : Tick K} (ha : Accepting inp) (ha' : Accepting inp') {w w' : World K} (hb : w'.bodies = w.bodies) {p p' : Nat × Nat}
    {info info' : Info K} (hi : AlikeInfo p p' info info') (hn : (w'.updated sc inp' (info'.pair p') info').state ≠ .first) {x : Arbiter K}
    (hx : x.setting = (w.updated sc inp (info.pair p) info).setting)
    (ho : (heldArb w'.cache (info'.pair p').1 (info'.pair p').2).contacts = x.contacts) :
    AlikeLoad ⟨(sc.figs (info.pair p).1).body, (sc.figs (info.pair p).2).body, x⟩
      ⟨(sc.figs (info'.pair p').1).body, (sc.figs (info'.pair p').2).body, w'.updated sc inp' (info'.pair p') info'⟩ := by
  obtain ⟨q, hq, hc, hi⟩ := hi
  rw [updated_accepting ha] at hx
  rw [updated_accepting ha'] at hn ⊢
  generalize info.pair p = ab at *
  generalize info'.pair p' = ab' at *
  generalize heldArb w'.cache ab'.1 ab'.2 = old' at *
  generalize heldArb w.cache ab.1 ab.2 = old at *
  rw [hb] at *
  simp only [Arbiter.setting, Arbiter.update, hc, List.map_cons, List.map_nil, Prod.mk.injEq] at hx
  obtain ⟨x1, x2, x3, x4⟩ := hx
  obtain ⟨c0, e0⟩ : ∃ c0, x.contacts = [c0] := by
    have := congrArg List.length x4
    simp only [List.length_map, List.length_cons, List.length_nil] at this
    exact List.length_eq_one_iff.1 this
  obtain ⟨f1, f2, f3⟩ := refresh_frame old.contacts (w.bodies (sc.figs ab.1).body).p (w.bodies (sc.figs ab.2).body).p q hq
  rw [e0] at x4 ho
  simp only [List.map_cons, List.map_nil, List.cons.injEq, and_true, Prod.mk.injEq] at x4
  rw [f1, f2, f3] at x4
  obtain ⟨y1, y2, y3⟩ := x4
  have ho' : old'.contacts.map (fun c => (c.r1, c.r2, c.jnAcc, c.jtAcc, c.hash)) = [(c0.r1, c0.r2, c0.jnAcc, c0.jtAcc, 0)] := by
    rw [ho]; simp [y3]
  rcases hi with ⟨rfl, hn', hc'⟩ | ⟨rfl, hn', hc'⟩
  · refine ⟨hn, x2.symm, ?_, .inl ⟨rfl, rfl, hn'.trans x1.symm, ?_⟩⟩
    · dsimp only
      rw [x3]
      simp only [Arbiter.update, hn']; exact id
    · simp only [Arbiter.update, hc', e0, List.map_cons, List.map_nil]
      obtain ⟨g1, g2, g3, g4, -⟩ := refresh_one _ _ ho' (w.bodies (sc.figs ab'.1).body).p (w.bodies (sc.figs ab'.2).body).p q hq
      exact .cons ⟨g1.trans y1.symm, g2.trans y2.symm, g3, g4⟩ .nil
  · refine ⟨hn, (mul_comm _ _).trans x2.symm, ?_, .inr ⟨rfl, rfl, ?_, ?_⟩⟩
    · dsimp only
      rw [x3]
      simp only [Arbiter.update, hn', V2.sub, V2.scale, V2.dot, V2.mk.injEq]
      rintro ⟨h1, h2⟩
      exact ⟨by linear_combination -h1, by linear_combination -h2⟩
    · dsimp only
      rw [x1]; exact hn'
    · simp only [Arbiter.update, hc', e0, List.map_cons, List.map_nil]
      obtain ⟨g1, g2, g3, g4, -⟩ := refresh_one _ _ ho' (w.bodies (sc.figs ab.2).body).p (w.bodies (sc.figs ab.1).body).p ⟨q.p2, q.p1, q.hash⟩ hq
      exact .cons ⟨g1.trans y2.symm, g2.trans y1.symm, g3, g4⟩ .nil

namespace Spec
/-- No two balls of different bodies have the same centre. -/
def Uneven (sc : Scene K) (fig : Nat → Figure K) (r : Roster) (w : World K) : Prop :=
  ∀ i j, r i ≠ none → r j ≠ none → (sc.figs i).body ≠ (sc.figs j).body →
    Eccentric (w.bodies (sc.figs i).body).tr (w.bodies (sc.figs j).body).tr (fig i) (fig j)
end Spec

theorem forall2_of_mem {α β : Type} {R S : α → β → Prop} {xs : List α} {ys : List β} (h : List.Forall₂ R xs ys) (hRS : ∀ x ∈ xs, ∀ y ∈ ys, R x y → S x y) : List.Forall₂ S xs ys := by
  induction h with
  | nil => exact .nil
  | cons e _ ih => exact .cons (hRS _ List.mem_cons_self _ List.mem_cons_self e) (ih fun x mx y my => hRS x (List.mem_cons_of_mem _ mx) y (List.mem_cons_of_mem _ my))

theorem forall2_map2 {α β γ : Type} {S : β → γ → Prop} (f : α → β) (g : α → γ) {R : α → α → Prop} {xs ys : List α} (h : List.Forall₂ R xs ys)
    (hRS : ∀ x ∈ xs, ∀ y ∈ ys, R x y → S (f x) (g y)) : List.Forall₂ S (xs.map f) (ys.map g) := by
  induction h with
  | nil => exact .nil
  | cons e _ ih => exact .cons (hRS _ List.mem_cons_self _ List.mem_cons_self e) (ih fun x mx y my => hRS x (List.mem_cons_of_mem _ mx) y (List.mem_cons_of_mem _ my))

theorem forall2_at {α β γ : Type} {S : β → γ → Prop} (f : α → β) (g : α → γ) {xs : List α} (h : List.Forall₂ S (xs.map f) (xs.map g)) : ∀ x ∈ xs, S (f x) (g x) := by
  induction xs with
  | nil => intro x m; cases m
  | cons a xs ih =>
    intro x m
    simp only [List.map_cons, List.forall₂_cons] at h
    rcases List.mem_cons.1 m with rfl | m
    · exact h.1
    · exact ih h.2 x m

/-- What is kept from step to step. -/
structure Resting (sc : Scene K) (r : Roster) (dt : K) (w : World K) : Prop where
  upright : Upright sc r w
  filed : Filed w
  unrefused : Unrefused w
  prev : w.prevDT = dt

namespace Spec
/-- The collisions a step has left, as collisions that are not new. -/
def aging (ls : List (Link (Arbiter K))) : List (Link (Arbiter K)) := ls.map fun l => ⟨l.ia, l.ib, { l.it with state := .normal }⟩
end Spec

theorem impulseLoop_setting (n sv : V2 K) (u : K) (cs : List (Contact K)) : ∀ a b : Body K,
    (Arbiter.impulseLoop n sv u cs a b).2.2.map (fun c => (c.r1, c.r2, c.hash)) = cs.map (fun c => (c.r1, c.r2, c.hash)) := by
  induction cs with
  | nil => intro a b; rfl
  | cons c cs ih =>
    intro a b
    simp only [Arbiter.impulseLoop, List.map_cons, ih]
    rfl

theorem applyImpulse_setting (arb : Arbiter K) (a b : Body K) : (arb.applyImpulse a b).2.2.setting = arb.setting := by
  simp only [Arbiter.setting, Arbiter.applyImpulse, impulseLoop_setting]

theorem preStep_setting (arb : Arbiter K) (a b : Body K) (dt slop bias : K) : (arb.preStep a b dt slop bias).setting = arb.setting := by
  simp only [Arbiter.setting, Arbiter.preStep, List.map_map, Function.comp_def]
  rfl

theorem step_setting (M : Mth K) (sc : Scene K) (hper : 1 ≤ sc.persistence) (inp : Tick K) (w : World K) (h0 : inp.dt ≠ 0) (h1 : OneEach w.cache)
    (hc : (w.calls M sc inp).Pairwise (fun p q => ¬ SameTwo p q)) :
    ∀ ab ∈ (w.step M sc inp).active, (heldArb (w.step M sc inp).cache ab.1 ab.2).setting = (heldArb ((w.found M sc inp).swept sc).cache ab.1 ab.2).setting := by
  have hsol := step_solver M sc hper inp w h0 h1 hc
  obtain ⟨-, -, -, e4, -⟩ := step_frame M sc inp w h0
  have hit := solve_items (fun a : Arbiter K => a.setting) preStep_setting
    (fun arb a b => applyImpulse_setting arb a b) M sc.par.inf sc.par.slop sc.par.cbias sc.par.damping sc.par.gravity inp.dyn w.prevDT inp.dt sc.par.iterations
    (((w.found M sc inp).swept sc).solver sc)
  have hst : ((w.step M sc inp).solver sc).arbs =
      (SolverState.solve M sc.par.inf sc.par.slop sc.par.cbias sc.par.damping sc.par.gravity inp.dyn w.prevDT inp.dt sc.par.iterations (((w.found M sc inp).swept sc).solver sc)).arbs := by
    rw [hsol]
    unfold SolverState.step
    rw [if_neg h0]
    obtain ⟨f1, f2, -⟩ := found_frame M sc inp w
    congr 2
    show (⟨_, _, _⟩ : SolverState K) = ⟨(w.found M sc inp).bodies, _, (w.found M sc inp).joints⟩
    rw [f1, f2]
    rfl
  rw [← hst] at hit
  simp only [World.solver, List.map_map] at hit
  intro ab hab
  rw [show ((w.found M sc inp).swept sc).active = (w.step M sc inp).active from e4.symm] at hit
  have := (List.map_inj_left.1 hit) ab hab
  simp only [Function.comp, Prod.mk.injEq] at this
  exact this.2.2

theorem rest_next {M : Mth K} (hM : M.Lawful) {sc : Scene K} {fig : Nat → Figure K} (hm : Made M sc fig) (hper : 1 ≤ sc.persistence) {r : Roster} (he : AllEasy sc fig r)
    {dt : K} (hdt : dt ≠ 0) {dyn : List Nat} {w : World K} (hw : Upright sc r w ∧ Filed w ∧ Unrefused w) (hun : Uneven sc fig r w)
    {inp : Tick K} (hi : inp.dt = dt ∧ inp.dyn = dyn ∧ Accepting inp ∧ WOk sc r (.step inp))
    (hrest : ∀ k, AtRest M (w.bodies k)) (hbod : (w.step M sc inp).bodies = w.bodies)
    (heq : Equilibrium M sc.par dt dyn w.bodies (aging ((w.step M sc inp).solver sc).arbs) (w.step M sc inp).joints) :
    Resting sc r dt (w.step M sc inp) ∧
      ∀ inp' : Tick K, inp'.dt = dt ∧ inp'.dyn = dyn ∧ Accepting inp' ∧ WOk sc r (.step inp') →
        Equilibrium M sc.par dt dyn (w.step M sc inp).bodies (collisions M sc inp' (w.step M sc inp)) (w.step M sc inp).joints := by
  classical
  obtain ⟨hu, hf, hr⟩ := hw
  obtain ⟨i1, i2, i3, i4⟩ := hi
  have h0 : inp.dt ≠ 0 := by rw [i1]; exact hdt
  have hc := calls_apart hM hm hu inp i4
  obtain ⟨w1, ew1, hu'⟩ := run1_upright hM hm hu (.step inp) i4
  obtain rfl := Option.some.inj ew1
  have hf' := step_filed M sc hper inp w h0 hf.one hc
  have hr' := step_unrefused M (sc := sc) i3 h0 hf.one hr
  have hprev' : (w.step M sc inp).prevDT = dt := by unfold World.step; rw [if_neg h0]; exact i1
  refine ⟨⟨hu', hf', hr', hprev'⟩, ?_⟩
  obtain ⟨e1, e2, e3, e4, e5⟩ := step_frame M sc inp w h0
  have hex : StepExact sc fig inp r w (w.step M sc inp) := step_exact hM hm hu inp i4 h0 (finds_detects hM hm hu inp i4 (.inl he))
  have hbeg := begun_rest (sc := sc) (inp := inp) hrest
  obtain ⟨hbu, hcur⟩ := begun_upright hM hm hu inp i4
  have hcx := calls_exact hM hm hu inp i4 h0 (finds_detects hM hm hu inp i4 (.inl he))
  rw [hbeg] at hcur
  have hset := step_setting M sc hper inp w h0 hf.one hc
  have hcol : aging ((w.step M sc inp).solver sc).arbs = (w.step M sc inp).active.map fun p =>
      ⟨(sc.figs p.1).body, (sc.figs p.2).body, { heldArb (w.step M sc inp).cache p.1 p.2 with state := .normal }⟩ := by
    simp only [aging, World.solver, List.map_map]; rfl
  have hcall1 : ∀ ab ∈ (w.step M sc inp).active, ∃ info, ∃ p ∈ w.calls M sc inp, (w.begun M sc inp).hit M sc p = some info ∧ ab = info.pair p ∧
      heldArb ((w.found M sc inp).swept sc).cache ab.1 ab.2 = (w.begun M sc inp).updated sc inp ab info := by
    intro ab hab; rw [e4] at hab; exact found_call M sc hper inp w hf.one hc ab hab
  generalize hw' : w.step M sc inp = w' at *
  intro inp' hi'
  obtain ⟨j1, j2, j3, j4⟩ := hi'
  have h0' : inp'.dt ≠ 0 := by rw [j1]; exact hdt
  have hc' := calls_apart hM hm hu' inp' j4
  obtain ⟨-, -, g3, g4, g5⟩ := step_frame M sc inp' w' h0'
  have hrest' : ∀ k, AtRest M (w'.bodies k) := by rw [hbod]; exact hrest
  have hbeg' := begun_rest (sc := sc) (inp := inp') hrest'
  have hex' := step_exact hM hm hu' inp' j4 h0' (finds_detects hM hm hu' inp' j4 (.inl he))
  obtain ⟨hbu', hcur'⟩ := begun_upright hM hm hu' inp' j4
  have hcx' := calls_exact hM hm hu' inp' j4 h0' (finds_detects hM hm hu' inp' j4 (.inl he))
  rw [hbeg', hbod] at hcur'
  have hcoll : ∀ i j, Colliding sc fig r (w'.step M sc inp') i j ↔ Colliding sc fig r w' i j := by
    intro i j
    unfold Colliding
    rw [g3]
    have ht : ∀ k, ((w'.step M sc inp').bodies k).tr = (w'.bodies k).tr := fun k => by rw [(g5 k).2.2.2, hbeg']
    rw [ht, ht]
  -- the same collisions are passed to the solver
  obtain ⟨fd, fd1, fd2, fd3⟩ := hex
  obtain ⟨fd', fd1', fd2', fd3'⟩ := hex'
  have hsame : ∀ p ∈ fd, ∃ p' ∈ fd', SameTwo p p' := by
    intro p hp
    obtain ⟨p', hp', hs⟩ := (fd2' p.1 p.2).2 ((hcoll _ _).2 ((fd2 p.1 p.2).1 ⟨p, hp, .inl rfl⟩))
    exact ⟨p', hp', SameTwo.symm hs⟩
  have hsame' : ∀ p' ∈ fd', ∃ p ∈ fd, SameTwo p p' := by
    intro p hp
    obtain ⟨p', hp', hs⟩ := (fd2 p.1 p.2).2 ((hcoll _ _).1 ((fd2' p.1 p.2).1 ⟨p, hp, .inl rfl⟩))
    exact ⟨p', hp', hs⟩
  have hwant : ∀ p p', SameTwo p p' → (Wanted sc inp w p ↔ Wanted sc inp' w' p') := by
    intro p p' hs
    rw [wanted_iff i3 hr, wanted_iff j3 hr', hbod]
    rcases hs with rfl | rfl
    · exact Iff.rfl
    · tauto
  have m1 : ∀ p ∈ w'.active, ∃ p' ∈ (w'.step M sc inp').active, SameTwo p p' := by
    intro p hp
    rw [fd3] at hp
    obtain ⟨hp1, hp2⟩ := List.mem_filter.1 hp
    obtain ⟨p', hp', hs⟩ := hsame p hp1
    refine ⟨p', ?_, hs⟩
    rw [fd3']
    exact List.mem_filter.2 ⟨hp', by simpa using (hwant p p' hs).1 (by simpa using hp2)⟩
  have m2 : ∀ p' ∈ (w'.step M sc inp').active, ∃ p ∈ w'.active, SameTwo p p' := by
    intro p' hp'
    rw [fd3'] at hp'
    obtain ⟨hp1, hp2⟩ := List.mem_filter.1 hp'
    obtain ⟨p, hp, hs⟩ := hsame' p' hp1
    refine ⟨p, ?_, hs⟩
    rw [fd3]
    exact List.mem_filter.2 ⟨hp, by simpa using (hwant p p' hs).2 (by simpa using hp2)⟩
  have hap' : (w'.step M sc inp').active.Pairwise fun p q => ¬ SameTwo p q := by rw [fd3']; exact fd1'.filter _
  obtain ⟨zs, z1, z2⟩ := match_up SameTwo (fun _ _ h => SameTwo.symm h) (fun _ _ _ h h' => h.trans h') _ _ hf'.apart hap' m1 m2
  have hcol' : collisions M sc inp' w' = (w'.step M sc inp').active.map fun p => ⟨(sc.figs p.1).body, (sc.figs p.2).body, heldArb ((w'.found M sc inp').swept sc).cache p.1 p.2⟩ := by
    rw [g4]; rfl
  rw [hbod, hcol']
  rw [hcol] at heq
  refine heq.again ?_ (z2.map _) (forall2_refl _ fun l m => ⟨rfl, rfl, hold_refl (heq.carries l m)⟩)
  refine forall2_map2 _ _ z1 fun ab hab ab' hab' hs => ?_
  obtain ⟨info, p, hp, hhit, eab, harb⟩ := hcall1 ab hab
  have hab2 : ab' ∈ (w'.found M sc inp').active := by rw [← g4]; exact z2.mem_iff.1 hab'
  obtain ⟨info', p', hp', hhit', eab', harb'⟩ := found_call M sc hper inp' w' hf'.one hc' ab' hab2
  have hheld := hset ab hab
  have hnorm : stateOf w' ab' = .normal := by rw [← stateOf_same hs]; exact filed_normal hf' hab
  obtain ⟨ne1, nb1, id1, col1⟩ := hit_collide hbu.proper hhit
  obtain ⟨ne2, nb2, id2, col2⟩ := hit_collide hbu'.proper hhit'
  obtain ⟨-, q1, q2, q3⟩ := hcx.2.1 p hp
  obtain ⟨-, q1', q2', -⟩ := hcx'.2.1 p' hp'
  rw [hcur _ q1, hcur _ q2, (hm _).2, (hm _).2] at col1
  rw [hcur' _ q1', hcur' _ q2', (hm _).2, (hm _).2] at col2
  have hpp : SameTwo p' p := by
    have a1 := info_pair info p
    have a2 := info_pair info' p'
    rw [← eab] at a1
    rw [← eab'] at a2
    exact (SameTwo.symm a2).trans ((SameTwo.symm hs).trans a1)
  have halike : AlikeInfo p p' info info' := by
    have := easy_again hM sc.par.inf sc.tiny _ _ (he _ _ q1 q2 q3 nb1) (hun _ _ q1 q2 nb1) _ _ p.1 p.2 id1 id2 info info' col1 ne1
    rcases hpp with rfl | rfl
    · exact this.1 col2
    · exact this.2 col2
  rw [harb']
  rw [harb] at hheld
  subst eab eab'
  refine load_again i3 j3 (by rw [hbeg', hbeg, hbod]) halike ?_ hheld ?_
  · rw [updated_state, hnorm]; simp
  · rw [heldArb_same hs]; exact aged_contacts w' _ _

theorem rest_step {M : Mth K} (hM : M.Lawful) {sc : Scene K} {fig : Nat → Figure K} (hm : Made M sc fig) (hper : 1 ≤ sc.persistence) {r : Roster} (he : AllEasy sc fig r)
    {dt : K} (hdt : dt ≠ 0) {dyn : List Nat} {w : World K} (hw : Resting sc r dt w) (hun : Uneven sc fig r w)
    {inp : Tick K} (hi : inp.dt = dt ∧ inp.dyn = dyn ∧ Accepting inp ∧ WOk sc r (.step inp))
    (heq : Equilibrium M sc.par dt dyn w.bodies (collisions M sc inp w) w.joints) :
    Resting sc r dt (w.step M sc inp) ∧ (w.step M sc inp).bodies = w.bodies ∧
      List.Forall₂ (SameLink SameHold) w.joints (w.step M sc inp).joints ∧
      ∀ inp' : Tick K, inp'.dt = dt ∧ inp'.dyn = dyn ∧ Accepting inp' ∧ WOk sc r (.step inp') →
        Equilibrium M sc.par dt dyn (w.step M sc inp).bodies (collisions M sc inp' (w.step M sc inp)) (w.step M sc inp).joints := by
  have h0 : inp.dt ≠ 0 := by rw [hi.1]; exact hdt
  have hc := calls_apart hM hm hw.upright inp hi.2.2.2
  have hsol := step_solver M sc hper inp w h0 hw.filed.one hc
  rw [hw.prev] at hsol
  obtain ⟨c1, c2, c3⟩ := C118_step hM hdt (i := ⟨inp.dt, inp.dyn, collisions M sc inp w⟩) hi.1 (s := ⟨w.bodies, [], w.joints⟩) (by rw [hi.2.1]; exact heq)
  rw [← hsol] at c1 c2 c3
  have hbod : (w.step M sc inp).bodies = w.bodies := c1
  have hjoi : List.Forall₂ (SameLink SameHold) w.joints (w.step M sc inp).joints := c3
  have hage : List.Forall₂ AlikeLoad (collisions M sc inp w) (aging ((w.step M sc inp).solver sc).arbs) := by
    have c2' : List.Forall₂ (SameLink SameLoad) (collisions M sc inp w) ((w.step M sc inp).solver sc).arbs := c2
    clear c2 heq hsol
    generalize collisions M sc inp w = xs at c2'
    generalize ((w.step M sc inp).solver sc).arbs = ys at c2'
    induction c2' with
    | nil => exact .nil
    | @cons x y _ _ e _ ih =>
      obtain ⟨a1, a2, a3⟩ := e
      refine .cons ⟨by simp, a3.u, fun h => a3.surfaceVr.trans h, .inl ⟨a1, a2, a3.normal, ?_⟩⟩ ih
      have hcon := a3.contacts
      dsimp only
      generalize x.it.contacts = cs at hcon
      generalize y.it.contacts = ds at hcon
      clear a1 a2 a3 ih
      induction cs generalizing ds with
      | nil => rw [List.map_nil, List.map_eq_nil_iff] at hcon; rw [hcon]; exact .nil
      | cons c cs ih =>
        cases ds with
        | nil => simp at hcon
        | cons d ds =>
          simp only [List.map_cons, List.cons.injEq, Prod.mk.injEq] at hcon
          obtain ⟨⟨b1, b2, b3, b4, -⟩, hcon⟩ := hcon
          exact .cons ⟨b1, b2, b3, b4⟩ (ih ds hcon)
  obtain ⟨k1, k2⟩ := rest_next hM hm hper he hdt ⟨hw.upright, hw.filed, hw.unrefused⟩ hun hi heq.rest hbod (heq.again hage (.refl _) hjoi)
  exact ⟨k1, hbod, hjoi, k2⟩

theorem rest_run {M : Mth K} (hM : M.Lawful) {sc : Scene K} {fig : Nat → Figure K} (hm : Made M sc fig) (hper : 1 ≤ sc.persistence) {r : Roster} (he : AllEasy sc fig r)
    {dt : K} (hdt : dt ≠ 0) {dyn : List Nat} (ticks : List (Tick K)) : ∀ {w : World K}, Resting sc r dt w → Uneven sc fig r w → ∀ first : Tick K,
    (∀ t ∈ first :: ticks, t.dt = dt ∧ t.dyn = dyn ∧ Accepting t ∧ WOk sc r (.step t)) →
    Equilibrium M sc.par dt dyn w.bodies (collisions M sc first w) w.joints →
    ∃ w', w.run M sc ((first :: ticks).map .step) = some w' ∧ w'.bodies = w.bodies ∧ List.Forall₂ (SameLink SameHold) w.joints w'.joints ∧ Resting sc r dt w' ∧
      ∀ inp' : Tick K, inp'.dt = dt ∧ inp'.dyn = dyn ∧ Accepting inp' ∧ WOk sc r (.step inp') →
        Equilibrium M sc.par dt dyn w'.bodies (collisions M sc inp' w') w'.joints := by
  induction ticks with
  | nil =>
    intro w hw hun first ht heq
    obtain ⟨h1, h2, h3, h4⟩ := rest_step hM hm hper he hdt hw hun (ht first List.mem_cons_self) heq
    exact ⟨_, rfl, h2, h3, h1, h4⟩
  | cons t ticks ih =>
    intro w hw hun first ht heq
    obtain ⟨h1, h2, h3, h4⟩ := rest_step hM hm hper he hdt hw hun (ht first List.mem_cons_self) heq
    obtain ⟨w', k1, k2, k3, k4⟩ := ih h1 (by unfold Uneven; rw [h2]; exact hun) t (fun x hx => ht x (List.mem_cons_of_mem _ hx))
      (h4 t (ht t (List.mem_cons_of_mem _ List.mem_cons_self)))
    refine ⟨w', k1, k2.trans h2, ?_, k4⟩
    exact sameLink_trans (R := SameHold) (fun x y z => hold_trans) h3 k3

/-- **C119.** After any history of a space of balls, and of rods that meet only balls: if the bodies rest in equilibrium under the collisions the next step finds, they
are in the same places after any number of steps of the same length, in whatever order the shapes are visited. -/
theorem C119_heap {M : Mth K} (hM : M.Lawful) {sc : Scene K} {fig : Nat → Figure K} (hm : Made M sc fig) (hper : 1 ≤ sc.persistence) (bodies : Nat → Body K)
    (shapes : Nat → CShape K) (hb : ∀ k, Rigid (bodies k).tr) (hs : ∀ i, (shapes i).bb.L ≤ (shapes i).bb.R ∧ (shapes i).bb.B ≤ (shapes i).bb.T)
    (ops : List (WorldOp K)) (hl : WLegal sc (fun _ => none) ops) (he : AllEasy sc fig (rosterAfter (fun _ => none) ops)) :
    ∃ w, (World.init bodies shapes).run M sc ops = some w ∧
      ∀ (dt : K) (dyn : List Nat) (first : Tick K) (ticks : List (Tick K)), dt ≠ 0 → w.prevDT = dt → Unrefused w → Uneven sc fig (rosterAfter (fun _ => none) ops) w →
        (∀ t ∈ first :: ticks, t.dt = dt ∧ t.dyn = dyn ∧ Accepting t ∧ WOk sc (rosterAfter (fun _ => none) ops) (.step t)) →
        Equilibrium M sc.par dt dyn w.bodies (collisions M sc first w) w.joints →
        ∃ w', w.run M sc ((first :: ticks).map .step) = some w' ∧ w'.bodies = w.bodies ∧ List.Forall₂ (SameLink SameHold) w.joints w'.joints := by
  obtain ⟨w, e, hu, hf⟩ := run_filed hM hm hper ops _ _ (init_upright sc bodies shapes hb hs)
    ⟨List.Pairwise.nil, List.Pairwise.nil, (fun p hp => by cases hp)⟩ hl
  refine ⟨w, e, fun dt dyn first ticks hdt hprev hun hev ht heq => ?_⟩
  obtain ⟨w', k1, k2, k3, -⟩ := rest_run hM hm hper he hdt ticks ⟨hu, hf, hun, hprev⟩ hev first ht heq
  exact ⟨w', k1, k2, k3⟩

/-- **C119.** The same if a step has left the bodies where they were, and the impulses its solver has left make up for gravity. -/
theorem C119_settled {M : Mth K} (hM : M.Lawful) {sc : Scene K} {fig : Nat → Figure K} (hm : Made M sc fig) (hper : 1 ≤ sc.persistence) (bodies : Nat → Body K)
    (shapes : Nat → CShape K) (hb : ∀ k, Rigid (bodies k).tr) (hs : ∀ i, (shapes i).bb.L ≤ (shapes i).bb.R ∧ (shapes i).bb.B ≤ (shapes i).bb.T)
    (ops : List (WorldOp K)) (hl : WLegal sc (fun _ => none) ops) (he : AllEasy sc fig (rosterAfter (fun _ => none) ops)) :
    ∃ w, (World.init bodies shapes).run M sc ops = some w ∧
      ∀ (dt : K) (dyn : List Nat) (first : Tick K) (ticks : List (Tick K)), dt ≠ 0 → Unrefused w → Uneven sc fig (rosterAfter (fun _ => none) ops) w →
        (∀ t ∈ first :: ticks, t.dt = dt ∧ t.dyn = dyn ∧ Accepting t ∧ WOk sc (rosterAfter (fun _ => none) ops) (.step t)) →
        (∀ k, AtRest M (w.bodies k)) → (w.step M sc first).bodies = w.bodies →
        Equilibrium M sc.par dt dyn w.bodies (aging ((w.step M sc first).solver sc).arbs) (w.step M sc first).joints →
        ∃ w', w.run M sc ((first :: ticks).map .step) = some w' ∧ w'.bodies = w.bodies := by
  obtain ⟨w, e, hu, hf⟩ := run_filed hM hm hper ops _ _ (init_upright sc bodies shapes hb hs)
    ⟨List.Pairwise.nil, List.Pairwise.nil, (fun p hp => by cases hp)⟩ hl
  refine ⟨w, e, fun dt dyn first ticks hdt hun hev ht hr hbod heq => ?_⟩
  obtain ⟨h1, h2⟩ := rest_next hM hm hper he hdt ⟨hu, hf, hun⟩ hev (ht first List.mem_cons_self) hr hbod heq
  cases ticks with
  | nil => exact ⟨_, rfl, hbod⟩
  | cons t ticks =>
    obtain ⟨w', k1, k2, -⟩ := rest_run hM hm hper he hdt ticks h1 (by unfold Uneven; rw [hbod]; exact hev) t (fun x hx => ht x (List.mem_cons_of_mem _ hx))
      (h2 t (ht t (List.mem_cons_of_mem _ List.mem_cons_self)))
    exact ⟨w', k1, k2.trans hbod⟩

end Cm
