import Verif.Props.Frame
import Verif.Props.Gjk
import Verif.Props.DetectEdges
import Verif.Props.ShapePoly

/-! # C109: contacts are the same seen from any frame -/

set_option linter.unusedSectionVars false
set_option linter.unusedSimpArgs false
set_option linter.unusedVariables false

namespace Cm
open Spec

variable {K : Type} [Field K] [LinearOrder K] [IsStrictOrderedRing K]

namespace Spec
namespace Frame
variable (F : Frame K)
/-- A side of a polygon, in the frame. -/
def plane (p : Plane K) : Plane K := ⟨F.pt p.v0, F.vec p.n⟩
/-- A shape, in the frame: what is measured along with the body stays the same. -/
def cls : Cls K → Cls K
  | .circle c => .circle { c with tc := F.pt c.tc }
  | .segment s => .segment { s with ta := F.pt s.ta, tb := F.pt s.tb, tn := F.vec s.tn }
  | .poly p => .poly { p with world := p.world.map F.plane }
/-- A pair of points of two shapes, in the frame. -/
def mp (m : MPoint K) : MPoint K := ⟨F.pt m.a, F.pt m.b, F.vec m.ab, m.id⟩
/-- Closest points, in the frame. -/
def closest (c : Closest K) : Closest K := ⟨F.pt c.a, F.pt c.b, F.vec c.n, c.d, c.id⟩
/-- A side facing another shape, in the frame. -/
def edge (e : Edge K) : Edge K := { e with ap := F.pt e.ap, bp := F.pt e.bp, n := F.vec e.n }
/-- A contact as found, in the frame. -/
def pushed (c : Pushed K) : Pushed K := { c with p1 := F.pt c.p1, p2 := F.pt c.p2 }
/-- What was found, in the frame. -/
def info (i : Info K) : Info K := { i with n := F.vec i.n, contacts := i.contacts.map F.pushed }
/-- A shape with its box, in the frame: the box is that of the turned shape, so nothing is said of it here. -/
structure Sees (a a' : CShape K) : Prop where
  cls : a'.cls = F.cls a.cls
  hash : a'.hash = a.hash
  rot : a'.rot = F.vec a.rot
end Frame
end Spec

section
variable {F : Frame K} (hF : F.Turn)
include hF

theorem vec_rperp (v : V2 K) : (F.vec v).rperp = F.vec v.rperp := by simp only [Frame.vec, V2.rperp]; ext <;> simp only <;> ring
theorem vec_lerpT (a b : V2 K) (t : K) : lerpT (F.vec a) (F.vec b) t = F.vec (lerpT a b t) := by
  simp only [Frame.vec, lerpT, V2.scale, V2.add]; ext <;> simp only <;> ring
theorem pt_lerpT (a b : V2 K) (t : K) : lerpT (F.pt a) (F.pt b) t = F.pt (lerpT a b t) := by
  simp only [Frame.pt, Frame.vec, lerpT, V2.scale, V2.add]; ext <;> simp only <;> ring
theorem pt_lerp (a b : V2 K) (t : K) : (F.pt a).lerp (F.pt b) t = F.pt (a.lerp b t) := by
  simp only [Frame.pt, Frame.vec, V2.lerp, V2.scale, V2.add]; ext <;> simp only <;> ring
theorem vec_closestT (a b : V2 K) : closestT (F.vec a) (F.vec b) = closestT a b := by
  simp only [closestT, Frame.vec_sub, Frame.vec_add, Frame.vec_lengthSq hF, Frame.vec_dot hF]
theorem vec_closestDist (a b : V2 K) : closestDist (F.vec a) (F.vec b) = closestDist a b := by
  simp only [closestDist, vec_closestT hF, vec_lerpT hF, Frame.vec_lengthSq hF]
theorem vec_pointGreater (a b c : V2 K) : pointGreater (F.vec a) (F.vec b) (F.vec c) = pointGreater a b c := by
  have hF' : F.r.x * F.r.x + F.r.y * F.r.y = 1 := hF
  have e : ((F.vec b).y - (F.vec a).y) * ((F.vec a).x + (F.vec b).x - 2 * (F.vec c).x) - ((F.vec b).x - (F.vec a).x) * ((F.vec a).y + (F.vec b).y - 2 * (F.vec c).y) =
      (b.y - a.y) * (a.x + b.x - 2 * c.x) - (b.x - a.x) * (a.y + b.y - 2 * c.y) := by
    simp only [Frame.vec]
    linear_combination ((b.y - a.y) * (a.x + b.x - 2 * c.x) - (b.x - a.x) * (a.y + b.y - 2 * c.y)) * hF'
  unfold pointGreater
  apply decide_eq_decide.2
  constructor <;> intro h <;> (simp only [gt_iff_lt] at h ⊢; linarith)
theorem vec_pointGreater_zero (a b : V2 K) : pointGreater (F.vec a) (F.vec b) V2.zero = pointGreater a b V2.zero := by
  have := vec_pointGreater hF a b V2.zero
  rwa [Frame.vec_zero] at this
theorem vec_checkAxis (a b p n : V2 K) : checkAxis (F.vec a) (F.vec b) (F.vec p) (F.vec n) = checkAxis a b p n := by
  simp only [checkAxis, Frame.vec_dot hF]
theorem pt_dot (v n : V2 K) : (F.pt v).dot (F.vec n) = v.dot n + F.d.dot (F.vec n) := by
  have : (F.pt v).dot (F.vec n) = (F.vec v).dot (F.vec n) + F.d.dot (F.vec n) := by simp only [Frame.pt, V2.add, V2.dot]; ring
  rw [this, Frame.vec_dot hF]
theorem pt_inj (v w : V2 K) : F.pt v = F.pt w ↔ v = w := by
  constructor
  · intro h
    have e := Frame.pt_sub F v w
    have z : (F.pt v).sub (F.pt w) = V2.zero := by rw [h]; simp [V2.sub, V2.zero]
    rw [z] at e
    have := (Frame.vec_eq_zero hF (v.sub w)).1 e.symm
    simp only [V2.sub, V2.zero, V2.mk.injEq] at this
    exact V2.ext (sub_eq_zero.1 this.1) (sub_eq_zero.1 this.2)
  · rintro rfl; rfl

theorem supportIndexGo_frame (n : V2 K) (l : List (Plane K)) : ∀ (i : Nat) (mx : K) (index : Nat),
    supportIndexGo (F.vec n) (l.map F.plane) i (mx + F.d.dot (F.vec n)) index = supportIndexGo n l i mx index := by
  induction l with
  | nil => intro i mx index; rfl
  | cons p l ih =>
    intro i mx index
    simp only [List.map_cons, supportIndexGo, Frame.plane, pt_dot hF, gt_iff_lt, add_lt_add_iff_right]
    split
    · exact ih _ _ _
    · exact ih _ _ _

theorem polySupportIndex_frame (inf : K) (n : V2 K) (l : List (Plane K)) (h1 : ∀ v ∈ l, -inf < v.v0.dot n)
    (h2 : ∀ v ∈ l, -inf < (F.pt v.v0).dot (F.vec n)) : polySupportIndex inf (l.map F.plane) (F.vec n) = polySupportIndex inf l n := by
  cases l with
  | nil => rfl
  | cons p l =>
    have a := h1 p List.mem_cons_self
    have b := h2 p List.mem_cons_self
    simp only [polySupportIndex, List.map_cons, supportIndexGo, Frame.plane, gt_iff_lt]
    rw [if_pos a, if_pos b, pt_dot hF]
    exact supportIndexGo_frame hF n l _ _ _

theorem planeAt_frame (l : List (Plane K)) (i : Nat) (h : i < l.length) : planeAt (l.map F.plane) i = F.plane (planeAt l i) := by
  simp only [planeAt, List.getD_eq_getElem?_getD, List.getElem?_map, List.getElem?_eq_getElem h, Option.map_some, Option.getD_some]

theorem corners_frame (s : Cls K) : corners (F.cls s) = (corners s).map F.pt := by
  cases s with
  | circle c => rfl
  | segment s => rfl
  | poly p => simp [corners, Frame.cls, Frame.plane, Function.comp_def]

theorem support_frame (inf : K) (s : Cls K) (hs : corners s ≠ []) (n : V2 K) (h1 : ∀ v ∈ corners s, -inf < v.dot n)
    (h2 : ∀ v ∈ corners s, -inf < (F.pt v).dot (F.vec n)) :
    (F.cls s).support inf (F.vec n) = ⟨F.pt (s.support inf n).p, (s.support inf n).index⟩ := by
  cases s with
  | circle c => rfl
  | segment s =>
    simp only [Frame.cls, Cls.support, pt_dot hF, gt_iff_lt, add_lt_add_iff_right]
    split <;> rfl
  | poly p =>
    have hw : p.world ≠ [] := by simpa [corners] using hs
    have e := polySupportIndex_frame hF inf n p.world (fun v hv => h1 _ (List.mem_map_of_mem hv)) (fun v hv => h2 _ (List.mem_map_of_mem hv))
    simp only [Frame.cls, Cls.support, e, planeAt_frame hF _ _ (polySupportIndex_lt inf p.world n hw)]
    rfl

theorem pointAt_frame (s : Cls K) (hs : corners s ≠ []) (i : Nat) : (F.cls s).pointAt i = ⟨F.pt (s.pointAt i).p, (s.pointAt i).index⟩ := by
  cases s with
  | circle c => rfl
  | segment s => simp only [Frame.cls, Cls.pointAt]; split <;> rfl
  | poly p =>
    have hw : 0 < p.world.length := List.length_pos_iff.2 (by simpa [corners] using hs)
    have : (if i < p.world.length then i else 0) < p.world.length := by split <;> assumption
    simp only [Frame.cls, Cls.pointAt, List.length_map, planeAt_frame hF _ _ this]
    rfl

theorem closestPoints_frame (M : Mth K) (v0 v1 : MPoint K) : (F.mp v0).closestPoints M (F.mp v1) = F.closest (v0.closestPoints M v1) := by
  have e : (F.mp v0).ab = F.vec v0.ab ∧ (F.mp v1).ab = F.vec v1.ab ∧ (F.mp v0).a = F.pt v0.a ∧ (F.mp v1).a = F.pt v1.a ∧ (F.mp v0).b = F.pt v0.b ∧
    (F.mp v1).b = F.pt v1.b ∧ (F.mp v0).id = v0.id ∧ (F.mp v1).id = v1.id := ⟨rfl, rfl, rfl, rfl, rfl, rfl, rfl, rfl⟩
  obtain ⟨a1, a2, a3, a4, a5, a6, a7, a8⟩ := e
  unfold MPoint.closestPoints
  rw [a1, a2, a3, a4, a5, a6, a7, a8, vec_closestT hF]
  generalize closestT v0.ab v1.ab = t
  dsimp only
  rw [vec_lerpT hF, pt_lerpT hF, pt_lerpT hF, Frame.vec_sub, vec_rperp hF, Frame.vec_unit hF]
  generalize lerpT v0.ab v1.ab t = p
  generalize ((v1.ab.sub v0.ab).rperp.unit M) = n
  rw [Frame.vec_dot hF, Frame.vec_mag hF, Frame.vec_scale]
  split <;> rfl

theorem epaScanGo_frame (l : List (MPoint K)) : ∀ (prev : MPoint K) (i j : Nat) (md : K) (mini : Nat),
    epaScanGo (F.mp prev) i j (l.map F.mp) md mini = epaScanGo prev i j l md mini := by
  induction l with
  | nil => intro prev i j md mini; rfl
  | cons h l ih =>
    intro prev i j md mini
    have e : closestDist (F.mp prev).ab (F.mp h).ab = closestDist prev.ab h.ab := vec_closestDist hF _ _
    simp only [List.map_cons, epaScanGo, e]
    split <;> exact ih _ _ _ _ _

theorem hullAt_frame (l : List (MPoint K)) (i : Nat) (h : i < l.length) : hullAt (l.map F.mp) i = F.mp (hullAt l i) := by
  simp only [hullAt, List.getD_eq_getElem?_getD, List.getElem?_map, List.getElem?_eq_getElem h, Option.map_some, Option.getD_some]

theorem epaScan_frame (inf : K) (l : List (MPoint K)) (hl : l ≠ []) : epaScan inf (l.map F.mp) = epaScan inf l := by
  have : l.length - 1 < l.length := by have := List.length_pos_iff.2 hl; omega
  simp only [epaScan, List.length_map, hullAt_frame hF _ _ this]
  exact epaScanGo_frame hF _ _ _ _ _ _

theorem epaRebuild_frame (p : MPoint K) (l : List (MPoint K)) : ∀ h0, epaRebuild (F.mp p) (F.mp h0) (l.map F.mp) = (epaRebuild p h0 l).map F.mp := by
  induction l with
  | nil => intro h0; rfl
  | cons h1 l ih =>
    intro h0
    have e : ((l.map F.mp).headD (F.mp p)).ab = F.vec (l.headD p).ab := by cases l <;> rfl
    have e2 : pointGreater (F.mp h0).ab ((l.map F.mp).headD (F.mp p)).ab (F.mp h1).ab = pointGreater h0.ab (l.headD p).ab h1.ab := by
      rw [e]; exact vec_pointGreater hF _ _ _
    simp only [List.map_cons, epaRebuild, e2]
    split
    · rw [List.map_cons, ih]
    · exact ih _

end

/-- Coordinates up to `B`. -/
def Small (B : K) (v : V2 K) : Prop := |v.x| ≤ B ∧ |v.y| ≤ B

theorem small_sub {B C : K} {v w : V2 K} (hv : Small B v) (hw : Small C w) : Small (B + C) (v.sub w) :=
  ⟨(abs_sub _ _).trans (add_le_add hv.1 hw.1), (abs_sub _ _).trans (add_le_add hv.2 hw.2)⟩
theorem small_perp {B : K} {v : V2 K} (hv : Small B v) : Small B v.perp := ⟨by simpa [V2.perp] using hv.2, by simpa [V2.perp] using hv.1⟩
theorem small_neg {B : K} {v : V2 K} (hv : Small B v) : Small B v.neg := ⟨by simpa [V2.neg] using hv.1, by simpa [V2.neg] using hv.2⟩
theorem small_mono {B C : K} (h : B ≤ C) {v : V2 K} (hv : Small B v) : Small C v := ⟨hv.1.trans h, hv.2.trans h⟩
theorem small_lerpT {B : K} {a b : V2 K} (ha : Small B a) (hb : Small B b) {t : K} (h0 : -1 ≤ t) (h1 : t ≤ 1) : Small B (lerpT a b t) := by
  have key : ∀ x y : K, |x| ≤ B → |y| ≤ B → |x * (1/2 - 1/2 * t) + y * (1/2 + 1/2 * t)| ≤ B := by
    intro x y hx hy
    rw [abs_le] at hx hy ⊢
    constructor <;> nlinarith
  exact ⟨by simpa [lerpT, V2.add, V2.scale] using key _ _ ha.1 hb.1, by simpa [lerpT, V2.add, V2.scale] using key _ _ ha.2 hb.2⟩
theorem small_dot {B C inf : K} {v n : V2 K} (hv : Small B v) (hn : Small C n) (h : 2 * (B * C) < inf) : -inf < v.dot n := by
  have e1 : |v.x * n.x| ≤ B * C := by rw [abs_mul]; exact mul_le_mul hv.1 hn.1 (abs_nonneg _) ((abs_nonneg _).trans hv.1)
  have e2 : |v.y * n.y| ≤ B * C := by rw [abs_mul]; exact mul_le_mul hv.2 hn.2 (abs_nonneg _) ((abs_nonneg _).trans hv.2)
  rw [abs_le] at e1 e2
  simp only [V2.dot]; linarith [e1.1, e2.1]

namespace Spec
/-- A shape lies within `B` of the origin in both frames, so that the number `inf` is as good as infinite: `inf` exceeds every product met. -/
structure Frame.Near (F : Frame K) (B inf : K) (s : Cls K) : Prop where
  some_corner : corners s ≠ []
  here : Within B s
  there : Within B (F.cls s)
  large : 8 * (B * B) + 2 * B < inf
end Spec

section
variable {F : Frame K} (hF : F.Turn) {B inf : K}

theorem support_near (hF : F.Turn) {s : Cls K} (h : F.Near B inf s) {n : V2 K} {C : K} (h1 : Small C n) (h2 : Small C (F.vec n)) (hC : 2 * (B * C) < inf) :
    (F.cls s).support inf (F.vec n) = ⟨F.pt (s.support inf n).p, (s.support inf n).index⟩ := by
  refine support_frame hF inf s h.some_corner n (fun v hv => small_dot (h.here v hv) h1 hC) (fun v hv => small_dot ?_ h2 hC)
  refine h.there _ ?_
  rw [corners_frame hF]; exact List.mem_map_of_mem hv

/-- What is known of the pairs of points met by the search. -/
structure Fit (F : Frame K) (B : K) (m : MPoint K) : Prop where
  ab : m.ab = m.b.sub m.a
  a : Small B m.a
  b : Small B m.b
  a' : Small B (F.pt m.a)
  b' : Small B (F.pt m.b)

theorem Fit.small {m : MPoint K} (h : Fit F B m) : Small (2 * B) m.ab ∧ Small (2 * B) (F.vec m.ab) := by
  rw [h.ab, ← Frame.pt_sub, two_mul]
  exact ⟨small_sub h.b h.a, small_sub h.b' h.a'⟩

theorem fit_new (hF : F.Turn) {s1 s2 : Cls K} (h1 : F.Near B inf s1) (h2 : F.Near B inf s2) {p q : SupportPoint K} (hp : p.p ∈ corners s1) (hq : q.p ∈ corners s2) :
    Fit F B (MPoint.new p q) := by
  have there : ∀ {s : Cls K}, F.Near B inf s → ∀ v ∈ corners s, Small B (F.pt v) := fun h v hv => h.there _ (by rw [corners_frame hF]; exact List.mem_map_of_mem hv)
  exact ⟨rfl, h1.here _ hp, h2.here _ hq, there h1 _ hp, there h2 _ hq⟩

theorem support_corner (inf : K) (s : Cls K) (hs : corners s ≠ []) (n : V2 K) : (s.support inf n).p ∈ corners s := by
  cases s with
  | circle c => simp [corners, Cls.support]
  | segment s => simp only [corners, Cls.support]; split <;> simp
  | poly p =>
    have hw : p.world ≠ [] := by simpa [corners] using hs
    exact List.mem_map_of_mem (planeAt_mem _ _ (polySupportIndex_lt inf p.world n hw))

theorem ctx_support (hF : F.Turn) {c c' : Ctx K} (e1 : c'.s1 = F.cls c.s1) (e2 : c'.s2 = F.cls c.s2) (h1 : F.Near B inf c.s1) (h2 : F.Near B inf c.s2)
    {n : V2 K} (s1 : Small (4 * B) n) (s2 : Small (4 * B) (F.vec n)) :
    c'.support inf (F.vec n) = F.mp (c.support inf n) ∧ Fit F B (c.support inf n) := by
  have hB : 0 ≤ B := by
    obtain ⟨v, hv⟩ := List.exists_mem_of_ne_nil _ h1.some_corner
    exact (abs_nonneg _).trans (h1.here v hv).1
  have hC : 2 * (B * (4 * B)) < inf := by have := h1.large; nlinarith
  constructor
  · unfold Ctx.support
    rw [e1, e2, Frame.vec_neg, support_near hF h1 (small_neg s1) (by rw [← Frame.vec_neg]; exact small_neg s2) hC, support_near hF h2 s1 s2 hC]
    simp only [MPoint.new, Frame.mp, Frame.pt_sub]
  · exact fit_new hF h1 h2 (support_corner _ _ h1.some_corner _) (support_corner _ _ h2.some_corner _)

variable {c c' : Ctx K}

theorem epaRecurse_frame (hF : F.Turn) (M : Mth K) (e1 : c'.s1 = F.cls c.s1) (e2 : c'.s2 = F.cls c.s2) (h1 : F.Near B inf c.s1) (h2 : F.Near B inf c.s2) :
    ∀ (fuel : Nat) (hull : List (MPoint K)), hull ≠ [] → (∀ m ∈ hull, Fit F B m) →
      epaRecurse M inf c' fuel (hull.map F.mp) = (F.closest (epaRecurse M inf c fuel hull).1, (epaRecurse M inf c fuel hull).2) := by
  intro fuel
  induction fuel with
  | zero =>
    intro hull hne hfit
    have hpos := List.length_pos_iff.2 hne
    have l0 := epaScan_lt inf hull hne
    have l1 : (epaScan inf hull + 1) % hull.length < hull.length := Nat.mod_lt _ hpos
    have m0 : hullAt hull (epaScan inf hull) ∈ hull := by simp [hullAt, List.getD_eq_getElem?_getD, List.getElem?_eq_getElem l0]
    have m1 : hullAt hull ((epaScan inf hull + 1) % hull.length) ∈ hull := by simp [hullAt, List.getD_eq_getElem?_getD, List.getElem?_eq_getElem l1]
    unfold epaRecurse
    simp only [List.length_map, epaScan_frame hF inf hull hne, hullAt_frame hF _ _ l0, hullAt_frame hF _ _ l1]
    generalize hullAt hull (epaScan inf hull) = v0 at *
    generalize hullAt hull ((epaScan inf hull + 1) % hull.length) = v1 at *
    have sm := fun m hm => (hfit m hm).small
    have n1 : Small (4 * B) (v1.ab.sub v0.ab).perp := small_perp (small_mono (by linarith) (small_sub (sm _ m1).1 (sm _ m0).1))
    have n2 : Small (4 * B) (F.vec (v1.ab.sub v0.ab).perp) := by
      rw [← Frame.vec_perp, ← Frame.vec_sub]; exact small_perp (small_mono (by linarith) (small_sub (sm _ m1).2 (sm _ m0).2))
    obtain ⟨es, fs⟩ := ctx_support hF e1 e2 h1 h2 n1 n2
    have ed : ((F.mp v1).ab.sub (F.mp v0).ab).perp = F.vec (v1.ab.sub v0.ab).perp := by simp only [Frame.mp, Frame.vec_sub, Frame.vec_perp]
    have eg : ∀ p : MPoint K, pointGreater (F.mp v0).ab (F.mp v1).ab (F.mp p).ab = pointGreater v0.ab v1.ab p.ab := fun p => vec_pointGreater hF _ _ _
    have ei : ∀ m : MPoint K, (F.mp m).id = m.id := fun _ => rfl
    simp only [ed, es, eg, ei, closestPoints_frame hF]
    split <;> rfl
  | succ fuel ih =>
    intro hull hne hfit
    have hpos := List.length_pos_iff.2 hne
    have l0 := epaScan_lt inf hull hne
    have l1 : (epaScan inf hull + 1) % hull.length < hull.length := Nat.mod_lt _ hpos
    have m0 : hullAt hull (epaScan inf hull) ∈ hull := by simp [hullAt, List.getD_eq_getElem?_getD, List.getElem?_eq_getElem l0]
    have m1 : hullAt hull ((epaScan inf hull + 1) % hull.length) ∈ hull := by simp [hullAt, List.getD_eq_getElem?_getD, List.getElem?_eq_getElem l1]
    unfold epaRecurse
    simp only [List.length_map, epaScan_frame hF inf hull hne, hullAt_frame hF _ _ l0, hullAt_frame hF _ _ l1]
    generalize hullAt hull ((epaScan inf hull + 1) % hull.length) = v1 at *
    generalize hullAt hull (epaScan inf hull) = v0 at *
    have sm := fun m hm => (hfit m hm).small
    have n1 : Small (4 * B) (v1.ab.sub v0.ab).perp := small_perp (small_mono (by linarith) (small_sub (sm _ m1).1 (sm _ m0).1))
    have n2 : Small (4 * B) (F.vec (v1.ab.sub v0.ab).perp) := by
      rw [← Frame.vec_perp, ← Frame.vec_sub]; exact small_perp (small_mono (by linarith) (small_sub (sm _ m1).2 (sm _ m0).2))
    obtain ⟨es, fs⟩ := ctx_support hF e1 e2 h1 h2 n1 n2
    have ed : ((F.mp v1).ab.sub (F.mp v0).ab).perp = F.vec (v1.ab.sub v0.ab).perp := by simp only [Frame.mp, Frame.vec_sub, Frame.vec_perp]
    have eg : ∀ p : MPoint K, pointGreater (F.mp v0).ab (F.mp v1).ab (F.mp p).ab = pointGreater v0.ab v1.ab p.ab := fun p => vec_pointGreater hF _ _ _
    have ei : ∀ m : MPoint K, (F.mp m).id = m.id := fun _ => rfl
    simp only [ed, es, eg, ei, closestPoints_frame hF]
    split
    · rw [← List.map_rotate, epaRebuild_frame hF, ← List.map_cons]
      refine ih _ (by simp) ?_
      intro m hm
      rcases List.mem_cons.1 hm with rfl | hm
      · exact fs
      · exact hfit _ (List.mem_rotate.1 (epaRebuild_mem _ _ _ _ hm))
    · rfl

theorem gjkRecurse_frame (hF : F.Turn) (M : Mth K) (e1 : c'.s1 = F.cls c.s1) (e2 : c'.s2 = F.cls c.s2) (h1 : F.Near B inf c.s1) (h2 : F.Near B inf c.s2) :
    ∀ (fuel : Nat) (w0 w1 : MPoint K), Fit F B w0 → Fit F B w1 →
      gjkRecurse M inf c' fuel (F.mp w0) (F.mp w1) = (F.closest (gjkRecurse M inf c fuel w0 w1).1, (gjkRecurse M inf c fuel w0 w1).2) := by
  have hB : 0 ≤ B := by
    obtain ⟨v, hv⟩ := List.exists_mem_of_ne_nil _ h1.some_corner
    exact (abs_nonneg _).trans (h1.here v hv).1
  intro fuel
  induction fuel with
  | zero => intro w0 w1 _ _; simp only [gjkRecurse, closestPoints_frame hF]
  | succ fuel ih =>
    intro w0 w1 f0 f1
    have eab : ∀ m : MPoint K, (F.mp m).ab = F.vec m.ab := fun _ => rfl
    have ite : ∀ (b : Bool) (x y : MPoint K), (if b = true then F.mp x else F.mp y) = F.mp (if b = true then x else y) := by intro b x y; cases b <;> rfl
    simp only [gjkRecurse, eab, vec_pointGreater_zero hF, ite]
    have g0 : Fit F B (if pointGreater w1.ab w0.ab V2.zero = true then w1 else w0) := by split <;> assumption
    have g1 : Fit F B (if pointGreater w1.ab w0.ab V2.zero = true then w0 else w1) := by split <;> assumption
    generalize (if pointGreater w1.ab w0.ab V2.zero = true then w1 else w0) = v0 at *
    generalize (if pointGreater w1.ab w0.ab V2.zero = true then w0 else w1) = v1 at *
    simp only [eab, vec_closestT hF, Frame.vec_sub, Frame.vec_perp, vec_lerpT hF, Frame.vec_neg]
    have ht := closestT_mem v0.ab v1.ab
    generalize closestT v0.ab v1.ab = t at *
    have itv : (if -1 < t ∧ t < 1 then F.vec (v1.ab.sub v0.ab).perp else F.vec (lerpT v0.ab v1.ab t).neg) =
        F.vec (if -1 < t ∧ t < 1 then (v1.ab.sub v0.ab).perp else (lerpT v0.ab v1.ab t).neg) := by split <;> rfl
    rw [itv]
    have n1 : Small (4 * B) (if -1 < t ∧ t < 1 then (v1.ab.sub v0.ab).perp else (lerpT v0.ab v1.ab t).neg) := by
      split
      · exact small_perp (small_mono (by linarith) (small_sub g1.small.1 g0.small.1))
      · exact small_neg (small_mono (by linarith) (small_lerpT g0.small.1 g1.small.1 ht.1 ht.2))
    have n2 : Small (4 * B) (F.vec (if -1 < t ∧ t < 1 then (v1.ab.sub v0.ab).perp else (lerpT v0.ab v1.ab t).neg)) := by
      rw [← itv]
      split
      · rw [← Frame.vec_perp, ← Frame.vec_sub]; exact small_perp (small_mono (by linarith) (small_sub g1.small.2 g0.small.2))
      · rw [← Frame.vec_neg, ← vec_lerpT hF]; exact small_neg (small_mono (by linarith) (small_lerpT g0.small.2 g1.small.2 ht.1 ht.2))
    generalize (if -1 < t ∧ t < 1 then (v1.ab.sub v0.ab).perp else (lerpT v0.ab v1.ab t).neg) = n at *
    obtain ⟨es, fs⟩ := ctx_support hF e1 e2 h1 h2 n1 n2
    rw [es]
    generalize c.support inf n = p at *
    simp only [eab, vec_pointGreater_zero hF, vec_checkAxis hF, vec_closestDist hF, closestPoints_frame hF]
    split
    · exact epaRecurse_frame hF M e1 e2 h1 h2 29 [v0, p, v1] (by simp) (by
        intro m hm
        simp only [List.mem_cons, List.not_mem_nil, or_false] at hm
        rcases hm with rfl | rfl | rfl <;> assumption)
    · split
      · rfl
      · split
        · exact ih _ _ g0 fs
        · exact ih _ _ fs g1


/-- How the search starts: from the points kept of the last time, or else along the line between the middles of the boxes, which must then be the
same line in both frames. -/
structure SameStart (F : Frame K) (B : K) (bb1 bb2 bb1' bb2' : BB K) : Prop where
  axis : bb1'.center.sub bb2'.center = F.vec (bb1.center.sub bb2.center)
  here : Small (4 * B) (bb1.center.sub bb2.center)
  there : Small (4 * B) (bb1'.center.sub bb2'.center)

theorem sub_swap (v w : V2 K) : v.sub w = (w.sub v).neg := by simp only [V2.sub, V2.neg]; ext <;> simp

theorem SameStart.swap {bb1 bb2 bb1' bb2' : BB K} (h : SameStart F B bb1 bb2 bb1' bb2') : SameStart F B bb2 bb1 bb2' bb1' := by
  refine ⟨?_, ?_, ?_⟩
  · rw [sub_swap, h.axis, Frame.vec_neg, ← sub_swap]
  · rw [sub_swap]; exact small_neg h.here
  · rw [sub_swap]; exact small_neg h.there

theorem gjk_frame (hF : F.Turn) (M : Mth K) (e1 : c'.s1 = F.cls c.s1) (e2 : c'.s2 = F.cls c.s2) (h1 : F.Near B inf c.s1) (h2 : F.Near B inf c.s2) (id : Nat)
    (hs : id = 0 → SameStart F B c.bb1 c.bb2 c'.bb1 c'.bb2) : gjk M inf c' id = (F.closest (gjk M inf c id).1, (gjk M inf c id).2) := by
  have key : gjkStart inf c' id = (F.mp (gjkStart inf c id).1, F.mp (gjkStart inf c id).2) ∧ Fit F B (gjkStart inf c id).1 ∧ Fit F B (gjkStart inf c id).2 := by
    unfold gjkStart
    split
    · have one : ∀ i j, MPoint.new (c'.s1.pointAt i) (c'.s2.pointAt j) = F.mp (MPoint.new (c.s1.pointAt i) (c.s2.pointAt j)) := by
        intro i j
        rw [e1, e2, pointAt_frame hF _ h1.some_corner, pointAt_frame hF _ h2.some_corner]
        simp only [MPoint.new, Frame.mp, Frame.pt_sub]
      rw [one, one]
      exact ⟨rfl, fit_new hF h1 h2 (pointAt_mem _ _ h1.some_corner).1 (pointAt_mem _ _ h2.some_corner).1,
        fit_new hF h1 h2 (pointAt_mem _ _ h1.some_corner).1 (pointAt_mem _ _ h2.some_corner).1⟩
    · rename_i hid
      obtain ⟨ax, a1, a2⟩ := hs (not_not.1 hid)
      dsimp only
      rw [ax, Frame.vec_perp, Frame.vec_neg]
      have n2 : Small (4 * B) (F.vec (c.bb1.center.sub c.bb2.center).perp) := by rw [← Frame.vec_perp, ← ax]; exact small_perp a2
      obtain ⟨p1, q1⟩ := ctx_support hF e1 e2 h1 h2 (small_perp a1) n2
      obtain ⟨p2, q2⟩ := ctx_support hF e1 e2 h1 h2 (small_neg (small_perp a1)) (by rw [← Frame.vec_neg]; exact small_neg n2)
      rw [p1, p2]
      exact ⟨rfl, q1, q2⟩
  unfold gjk
  rw [key.1]
  exact gjkRecurse_frame hF M e1 e2 h1 h2 30 _ _ key.2.1 key.2.2

theorem epaRecurse_made (M : Mth K) (c : Ctx K) : ∀ (fuel : Nat) (hull : List (MPoint K)), ∃ v0 v1 : MPoint K, (epaRecurse M inf c fuel hull).1 = v0.closestPoints M v1 := by
  intro fuel
  induction fuel with
  | zero => intro hull; unfold epaRecurse; dsimp only; split <;> exact ⟨_, _, rfl⟩
  | succ fuel ih =>
    intro hull; unfold epaRecurse; dsimp only; split
    · exact ih _
    · exact ⟨_, _, rfl⟩

theorem gjkRecurse_made (M : Mth K) (c : Ctx K) : ∀ (fuel : Nat) (w0 w1 : MPoint K), ∃ v0 v1 : MPoint K, (gjkRecurse M inf c fuel w0 w1).1 = v0.closestPoints M v1 := by
  intro fuel
  induction fuel with
  | zero => intro w0 w1; exact ⟨_, _, rfl⟩
  | succ fuel ih =>
    intro w0 w1
    unfold gjkRecurse
    dsimp only
    generalize (if pointGreater w1.ab w0.ab V2.zero = true then w1 else w0) = v0
    generalize (if pointGreater w1.ab w0.ab V2.zero = true then w0 else w1) = v1
    generalize (if -1 < closestT v0.ab v1.ab ∧ closestT v0.ab v1.ab < 1 then (v1.ab.sub v0.ab).perp else (lerpT v0.ab v1.ab (closestT v0.ab v1.ab)).neg) = n
    split
    · exact epaRecurse_made M c _ _
    · split
      · exact ⟨_, _, rfl⟩
      · split <;> exact ih _ _

theorem small_unit {M : Mth K} (hM : M.Lawful) (v : V2 K) : Small 1 (v.unit M) := by
  by_cases h : v = V2.zero
  · subst h; rw [unit_zero]; constructor <;> simp [V2.zero]
  · have := unit_sq hM v h
    simp only [V2.lengthSq, V2.dot] at this
    constructor <;> (rw [← sq_le_one_iff_abs_le_one]; nlinarith [mul_self_nonneg (v.unit M).x, mul_self_nonneg (v.unit M).y])

theorem gjk_small (hF : F.Turn) {M : Mth K} (hM : M.Lawful) (c : Ctx K) (id : Nat) : Small 1 (gjk M inf c id).1.n ∧ Small 1 (F.vec (gjk M inf c id).1.n) := by
  have key : ∃ v : V2 K, (gjk M inf c id).1.n = v.unit M := by
    obtain ⟨v0, v1, e⟩ := gjkRecurse_made (inf := inf) M c 30 (gjkStart inf c id).1 (gjkStart inf c id).2
    unfold gjk
    dsimp only
    rw [e]
    unfold MPoint.closestPoints
    dsimp only
    split
    · exact ⟨_, rfl⟩
    · exact ⟨_, rfl⟩
  obtain ⟨v, e⟩ := key
  rw [e]
  exact ⟨small_unit hM v, by rw [← Frame.vec_unit hF]; exact small_unit hM _⟩

theorem segment_edge_frame (hF : F.Turn) (hash : BitVec 64) (s : Segment K) (n : V2 K) :
    Segment.supportEdge hash { s with ta := F.pt s.ta, tb := F.pt s.tb, tn := F.vec s.tn } (F.vec n) = F.edge (s.supportEdge hash n) := by
  simp only [Segment.supportEdge, Frame.vec_dot hF, Frame.vec_neg]
  split <;> rfl

theorem poly_edge_frame (hF : F.Turn) (hash : BitVec 64) {p : Poly K} (h : F.Near B inf (.poly p)) {n : V2 K} (h1 : Small 1 n) (h2 : Small 1 (F.vec n)) :
    Poly.supportEdge inf hash { p with world := p.world.map F.plane } (F.vec n) = F.edge (p.supportEdge inf hash n) := by
  have hw : p.world ≠ [] := by simpa [corners] using h.some_corner
  have hpos := List.length_pos_iff.2 hw
  have hB : 0 ≤ B := by
    obtain ⟨v, hv⟩ := List.exists_mem_of_ne_nil _ h.some_corner
    exact (abs_nonneg _).trans (h.here v hv).1
  have hC : 2 * (B * 1) < inf := by have := h.large; nlinarith
  have e := polySupportIndex_frame hF inf n p.world (fun v hv => small_dot (h.here _ (List.mem_map_of_mem hv)) h1 hC)
    (fun v hv => small_dot (h.there _ (by rw [corners_frame hF]; exact List.mem_map_of_mem (List.mem_map_of_mem hv))) h2 hC)
  have l1 := polySupportIndex_lt inf p.world n hw
  unfold Poly.supportEdge
  dsimp only
  rw [e, List.length_map]
  generalize polySupportIndex inf p.world n = i1 at *
  rw [planeAt_frame hF _ _ l1, planeAt_frame hF _ _ (Nat.mod_lt (i1 + 1) hpos), planeAt_frame hF _ _ (Nat.mod_lt (i1 + p.world.length - 1) hpos)]
  simp only [Frame.plane, Frame.vec_dot hF]
  split <;> rfl

theorem pt_add' (v w : V2 K) : (F.vec w).add (F.pt v) = F.pt (w.add v) := by
  simp only [Frame.pt, Frame.vec, V2.add]; ext <;> simp only <;> ring

theorem contactAt_frame (hF : F.Turn) (n : V2 K) (e1 e2 : Edge K) (u1 u2 : K) (hash : BitVec 64) :
    contactAt (F.vec n) (F.edge e1) (F.edge e2) u1 u2 hash = (contactAt n e1 e2 u1 u2 hash).map F.pushed := by
  simp only [contactAt, Frame.edge, Frame.vec_scale, pt_lerp hF, pt_add', Frame.pt_sub, Frame.vec_dot hF]
  split <;> rfl

theorem pt_cross (hF : F.Turn) (v n : V2 K) : (F.pt v).cross (F.vec n) = v.cross n + F.d.cross (F.vec n) := by
  have : (F.pt v).cross (F.vec n) = (F.vec v).cross (F.vec n) + F.d.cross (F.vec n) := by simp only [Frame.pt, V2.add, V2.cross]; ring
  rw [this, Frame.vec_cross hF]

theorem contactPoints_frame (hF : F.Turn) (tiny : K) (e1 e2 : Edge K) (points : Closest K) (i : Info K) :
    contactPoints tiny (F.edge e1) (F.edge e2) (F.closest points) (F.info i) = F.info (contactPoints tiny e1 e2 points i) := by
  have r : ∀ e : Edge K, (F.edge e).r = e.r := fun _ => rfl
  have d : (F.closest points).d = points.d := rfl
  have n : (F.closest points).n = F.vec points.n := rfl
  have a : ∀ e : Edge K, (F.edge e).ap.cross (F.vec points.n) = e.ap.cross points.n + F.d.cross (F.vec points.n) := fun e => pt_cross hF _ _
  have b : ∀ e : Edge K, (F.edge e).bp.cross (F.vec points.n) = e.bp.cross points.n + F.d.cross (F.vec points.n) := fun e => pt_cross hF _ _
  have ah : ∀ e : Edge K, (F.edge e).ah = e.ah := fun _ => rfl
  have bh : ∀ e : Edge K, (F.edge e).bh = e.bh := fun _ => rfl
  unfold contactPoints
  simp only [r, d, n, a, b, ah, bh, add_sub_add_right_eq_sub, contactAt_frame hF]
  split
  · rfl
  · simp only [Frame.info, List.map_append]

theorem circleToCircle_frame (hF : F.Turn) {M : Mth K} (hM : M.Lawful) (c1 c2 : Circle K) (i : Info K) (h : c1.tc = c2.tc → F.r = ⟨1, 0⟩) :
    circleToCircle M { c1 with tc := F.pt c1.tc } { c2 with tc := F.pt c2.tc } (F.info i) = F.info (circleToCircle M c1 c2 i) := by
  unfold circleToCircle
  dsimp only
  rw [Frame.pt_sub, Frame.vec_lengthSq hF]
  have hn : (if M.sqrt (c2.tc.sub c1.tc).lengthSq ≠ 0 then (F.vec (c2.tc.sub c1.tc)).scale (1 / M.sqrt (c2.tc.sub c1.tc).lengthSq) else ⟨1, 0⟩) =
      F.vec (if M.sqrt (c2.tc.sub c1.tc).lengthSq ≠ 0 then (c2.tc.sub c1.tc).scale (1 / M.sqrt (c2.tc.sub c1.tc).lengthSq) else ⟨1, 0⟩) := by
    split
    · rw [Frame.vec_scale]
    · rename_i h0
      have h0 := not_not.1 h0
      have hs := hM.sqrt_sq _ (lengthSq_nonneg (c2.tc.sub c1.tc))
      rw [h0, zero_mul] at hs
      have hx : c1.tc = c2.tc := by
        simp only [V2.lengthSq, V2.dot, V2.sub] at hs
        refine V2.ext ?_ ?_ <;> nlinarith [mul_self_nonneg (c2.tc.x - c1.tc.x), mul_self_nonneg (c2.tc.y - c1.tc.y)]
      rw [Frame.vec, h hx]; ext <;> simp
  rw [hn]
  generalize (if M.sqrt (c2.tc.sub c1.tc).lengthSq ≠ 0 then (c2.tc.sub c1.tc).scale (1 / M.sqrt (c2.tc.sub c1.tc).lengthSq) else ⟨1, 0⟩) = n
  split
  · simp only [Frame.info, Frame.vec_scale, Frame.pt_add, List.map_cons, List.map_nil, Frame.pushed]
  · rfl

theorem vec_rotate_right (v w : V2 K) : v.rotate (F.vec w) = F.vec (v.rotate w) := by
  simp only [Frame.vec, V2.rotate]; ext <;> simp only <;> ring

theorem circleToSegment_frame (hF : F.Turn) (M : Mth K) (c : Circle K) (s : Segment K) (rot : V2 K) (i : Info K) :
    circleToSegment M { c with tc := F.pt c.tc } { s with ta := F.pt s.ta, tb := F.pt s.tb, tn := F.vec s.tn } (F.vec rot) (F.info i) =
      F.info (circleToSegment M c s rot i) := by
  unfold circleToSegment
  dsimp only
  simp only [Frame.pt_sub, Frame.vec_dot hF, Frame.vec_lengthSq hF, Frame.vec_scale, Frame.pt_add, vec_rotate_right]
  generalize clamp01 ((s.tb.sub s.ta).dot (c.tc.sub s.ta) / (s.tb.sub s.ta).lengthSq) = t
  generalize s.ta.add ((s.tb.sub s.ta).scale t) = q
  have hn : ∀ x : K, (if x ≠ 0 then F.vec ((q.sub c.tc).scale (1 / x)) else F.vec s.tn) = F.vec (if x ≠ 0 then (q.sub c.tc).scale (1 / x) else s.tn) := by
    intro x; split <;> rfl
  rw [hn]
  generalize (if M.sqrt (q.sub c.tc).lengthSq ≠ 0 then (q.sub c.tc).scale (1 / M.sqrt (q.sub c.tc).lengthSq) else s.tn) = n
  simp only [Frame.vec_dot hF, Frame.vec_scale, Frame.pt_add]
  split
  · split <;> simp only [Frame.info, List.map_cons, List.map_nil, Frame.pushed]
  · rfl

end

section
variable {F : Frame K} {B inf : K}

/-- Two shapes in a frame, from their sorted order on. -/
theorem collideSorted_frame (hF : F.Turn) {M : Mth K} (hM : M.Lawful) (tiny : K) {a b a' b' : CShape K} (ha : F.Sees a a') (hb : F.Sees b b')
    (na : F.Near B inf a.cls) (nb : F.Near B inf b.cls) (i : Info K) (hs : i.id = 0 → SameStart F B a.bb b.bb a'.bb b'.bb)
    (hc : ∀ c1 c2, a.cls = .circle c1 → b.cls = .circle c2 → c1.tc = c2.tc → F.r = ⟨1, 0⟩) :
    collideSorted M inf tiny a' b' (F.info i) = (collideSorted M inf tiny a b i).map F.info := by
  have hg : gjk M inf ⟨a'.cls, b'.cls, a'.bb, b'.bb⟩ i.id = (F.closest (gjk M inf ⟨a.cls, b.cls, a.bb, b.bb⟩ i.id).1, (gjk M inf ⟨a.cls, b.cls, a.bb, b.bb⟩ i.id).2) :=
    gjk_frame hF M (c := ⟨a.cls, b.cls, a.bb, b.bb⟩) (c' := ⟨a'.cls, b'.cls, a'.bb, b'.bb⟩) ha.cls hb.cls na nb i.id hs
  have hg1 : (gjk M inf ⟨a'.cls, b'.cls, a'.bb, b'.bb⟩ i.id).1 = F.closest (gjk M inf ⟨a.cls, b.cls, a.bb, b.bb⟩ i.id).1 := by rw [hg]
  have sm := gjk_small (inf := inf) hF hM ⟨a.cls, b.cls, a.bb, b.bb⟩ i.id
  have hid : (F.info i).id = i.id := rfl
  obtain ⟨acls, abb, ahash, arot⟩ := a
  obtain ⟨bcls, bbb, bhash, brot⟩ := b
  obtain ⟨acls', abb', ahash', arot'⟩ := a'
  obtain ⟨bcls', bbb', bhash', brot'⟩ := b'
  obtain ⟨ea1, ea2, ea3⟩ := ha
  obtain ⟨eb1, eb2, eb3⟩ := hb
  dsimp only at ea1 ea2 ea3 eb1 eb2 eb3 hg1 sm na nb
  subst ea1 ea2 ea3 eb1 eb2 eb3
  generalize hP : (gjk M inf ⟨acls, bcls, abb, bbb⟩ i.id).1 = P at *
  have fields : (F.closest P).a = F.pt P.a ∧ (F.closest P).b = F.pt P.b ∧ (F.closest P).n = F.vec P.n ∧ (F.closest P).d = P.d ∧ (F.closest P).id = P.id := ⟨rfl, rfl, rfl, rfl, rfl⟩
  obtain ⟨f1, f2, f3, f4, f5⟩ := fields
  have hi : ({ F.info i with id := P.id } : Info K) = F.info { i with id := P.id } := rfl
  cases acls with
  | circle c1 =>
    cases bcls with
    | circle c2 => exact congrArg some (circleToCircle_frame hF hM c1 c2 i (hc c1 c2 rfl rfl))
    | segment s => exact congrArg some (circleToSegment_frame hF M c1 s _ i)
    | poly p =>
      refine congrArg some ?_
      simp only [circleToPoly, hid]
      rw [hg1, hP]
      simp only [f1, f2, f3, f4, f5, Frame.vec_scale, Frame.pt_add]
      split <;> rfl
  | segment s =>
    cases bcls with
    | circle c2 => rfl
    | segment s2 =>
      refine congrArg some ?_
      simp only [segmentToSegment, hid]
      rw [hg1, hP]
      simp only [f1, f2, f3, f4, f5, vec_rotate_right, Frame.vec_dot hF, ne_eq, pt_inj hF, Frame.vec_neg, segment_edge_frame hF, hi, contactPoints_frame hF]
      split
      · rfl
      · split <;> rfl
    | poly p =>
      refine congrArg some ?_
      have hp := poly_edge_frame hF bhash' nb (n := P.n.neg) (small_neg sm.1) (by rw [← Frame.vec_neg]; exact small_neg sm.2)
      simp only [segmentToPoly, hid]
      rw [hg1, hP]
      simp only [f1, f2, f3, f4, f5, vec_rotate_right, Frame.vec_dot hF, ne_eq, pt_inj hF, Frame.vec_neg, segment_edge_frame hF, hp, hi, contactPoints_frame hF]
      split <;> rfl
  | poly p =>
    cases bcls with
    | circle c2 => rfl
    | segment s2 => rfl
    | poly q =>
      refine congrArg some ?_
      have hp := poly_edge_frame hF ahash' na (n := P.n) sm.1 sm.2
      have hq := poly_edge_frame hF bhash' nb (n := P.n.neg) (small_neg sm.1) (by rw [← Frame.vec_neg]; exact small_neg sm.2)
      simp only [polyToPoly, hid]
      rw [hg1, hP]
      simp only [f3, f4, f5, Frame.vec_neg, hp, hq, hi, contactPoints_frame hF]
      split <;> rfl

/-- **C109.** Two shapes displaced and turned together get the displaced and turned contacts. A search with nothing kept from the last time starts
along the line between the middles of the boxes, which must be displaced and turned likewise; it is if nothing is turned (`C109_shifted`). Two circles
with the same middle get a fixed normal and must not be turned (`C109_concentric`). -/
theorem C109_collide_partial (hF : F.Turn) {M : Mth K} (hM : M.Lawful) (tiny : K) {a b a' b' : CShape K} (ha : F.Sees a a') (hb : F.Sees b b')
    (na : F.Near B inf a.cls) (nb : F.Near B inf b.cls) (id : Nat) (hs : id = 0 → SameStart F B a.bb b.bb a'.bb b'.bb)
    (hc : ∀ c1 c2, a.cls = .circle c1 → b.cls = .circle c2 → c1.tc = c2.tc → F.r = ⟨1, 0⟩) :
    collide M inf tiny a' b' id = (collide M inf tiny a b id).map F.info := by
  have ord : ∀ s : Cls K, (F.cls s).order = s.order := by intro s; cases s <;> rfl
  have zero : ∀ w : Bool, F.info ⟨w, id, V2.zero, []⟩ = ⟨w, id, V2.zero, []⟩ := by intro w; simp only [Frame.info, Frame.vec_zero, List.map_nil]
  unfold collide
  rw [ha.cls, hb.cls, ord, ord]
  split
  · have := collideSorted_frame hF hM tiny hb ha nb na ⟨true, id, V2.zero, []⟩ (fun h => (hs h).swap) (fun c1 c2 h1 h2 e => hc c2 c1 h2 h1 e.symm)
    rwa [zero] at this
  · have := collideSorted_frame hF hM tiny ha hb na nb ⟨false, id, V2.zero, []⟩ hs hc
    rwa [zero] at this

/-- **C109.** A shape cached from a displaced and turned placement is the displaced and turned shape. -/
theorem C109_cached {F : Frame K} (hF : F.Turn) (inf : K) (t : Transform K) (s : Cls K) (hash : BitVec 64) :
    F.Sees (cachedShape inf t s hash) (cachedShape inf (F.tr t) s hash) := by
  refine ⟨?_, rfl, rfl⟩
  cases s with
  | circle c => simp only [cachedShape, Cls.cache, Circle.cache, Frame.cls, apply_frame hF]
  | segment s => simp only [cachedShape, Cls.cache, Segment.cache, Frame.cls, apply_frame hF, applyVector_frame hF]
  | poly p => simp [cachedShape, Cls.cache, Poly.cache, Frame.cls, Frame.plane, apply_frame hF, applyVector_frame hF, Function.comp_def]

theorem fold_min_shift {α : Type} (f g : α → K) (d inf : K) (l : List α) (hl : l ≠ []) (h : ∀ x ∈ l, g x = f x + d) (h1 : ∀ x ∈ l, f x ≤ inf) (h2 : ∀ x ∈ l, g x ≤ inf) :
    l.foldl (fun m x => min m (g x)) inf = l.foldl (fun m x => min m (f x)) inf + d := by
  have go : ∀ (l : List α) (m : K), (∀ x ∈ l, g x = f x + d) → l.foldl (fun m x => min m (g x)) (m + d) = l.foldl (fun m x => min m (f x)) m + d := by
    intro l
    induction l with
    | nil => intro m _; rfl
    | cons x l ih =>
      intro m h
      simp only [List.foldl_cons]
      rw [h x List.mem_cons_self, min_add_add_right]
      exact ih _ fun y hy => h y (List.mem_cons_of_mem _ hy)
  cases l with
  | nil => exact absurd rfl hl
  | cons x l =>
    simp only [List.foldl_cons]
    rw [min_eq_right (h1 x List.mem_cons_self), min_eq_right (h2 x List.mem_cons_self), h x List.mem_cons_self]
    exact go l _ fun y hy => h y (List.mem_cons_of_mem _ hy)

theorem fold_max_shift {α : Type} (f g : α → K) (d inf : K) (l : List α) (hl : l ≠ []) (h : ∀ x ∈ l, g x = f x + d) (h1 : ∀ x ∈ l, -inf ≤ f x) (h2 : ∀ x ∈ l, -inf ≤ g x) :
    l.foldl (fun m x => max m (g x)) (-inf) = l.foldl (fun m x => max m (f x)) (-inf) + d := by
  have go : ∀ (l : List α) (m : K), (∀ x ∈ l, g x = f x + d) → l.foldl (fun m x => max m (g x)) (m + d) = l.foldl (fun m x => max m (f x)) m + d := by
    intro l
    induction l with
    | nil => intro m _; rfl
    | cons x l ih =>
      intro m h
      simp only [List.foldl_cons]
      rw [h x List.mem_cons_self, max_add_add_right]
      exact ih _ fun y hy => h y (List.mem_cons_of_mem _ hy)
  cases l with
  | nil => exact absurd rfl hl
  | cons x l =>
    simp only [List.foldl_cons]
    rw [max_eq_right (h1 x List.mem_cons_self), max_eq_right (h2 x List.mem_cons_self), h x List.mem_cons_self]
    exact go l _ fun y hy => h y (List.mem_cons_of_mem _ hy)

theorem unturned {F : Frame K} (h : F.r = ⟨1, 0⟩) : F.Turn ∧ (∀ v, F.vec v = v) ∧ ∀ v, F.pt v = v.add F.d := by
  refine ⟨by simp [Frame.Turn, h], ?_, ?_⟩
  · intro v; simp [Frame.vec, h]
  · intro v; simp [Frame.pt, Frame.vec, h]

/-- **C109.** The box of a displaced shape is the displaced box. -/
theorem C109_box {F : Frame K} (hr : F.r = ⟨1, 0⟩) (t : Transform K) (s : Cls K) (hash : BitVec 64) (h : F.Near B inf (cachedShape inf t s hash).cls) :
    (cachedShape inf (F.tr t) s hash).bb = (cachedShape inf t s hash).bb.offset F.d := by
  obtain ⟨hF, -, hp⟩ := unturned hr
  have e : ∀ v, (F.tr t).apply v = (t.apply v).add F.d := fun v => by rw [apply_frame hF, hp]
  cases s with
  | circle c => simp only [cachedShape, Cls.cache, Circle.cache, e, BB.forCircle, BB.offset, BB.forExtents, V2.add]; ext <;> simp only <;> ring
  | segment s =>
    simp only [cachedShape, Cls.cache, Segment.cache, e, BB.offset, V2.add, add_lt_add_iff_right]
    ext <;> simp only <;> split <;> ring
  | poly p =>
    have hne : p.loc ≠ [] := by
      have := h.some_corner
      intro h0; apply this; simp [cachedShape, Cls.cache, Poly.cache, corners, h0]
    have hB : 0 ≤ B := by
      obtain ⟨v, hv⟩ := List.exists_mem_of_ne_nil _ h.some_corner
      exact (abs_nonneg _).trans (h.here v hv).1
    have hBi : B ≤ inf := by have := h.large; nlinarith
    have here : ∀ x ∈ p.loc, Small inf (t.apply x.v0) := fun x hx =>
      small_mono hBi (h.here _ (by simp only [cachedShape, Cls.cache, Poly.cache, corners, List.map_map]; exact List.mem_map_of_mem hx))
    have there : ∀ x ∈ p.loc, Small inf ((F.tr t).apply x.v0) := fun x hx => by
      refine small_mono hBi (h.there _ ?_)
      rw [corners_frame hF, apply_frame hF]
      refine List.mem_map_of_mem ?_
      simp only [cachedShape, Cls.cache, Poly.cache, corners, List.map_map]; exact List.mem_map_of_mem hx
    simp only [cachedShape, Cls.cache, Poly.cache, BB.offset, List.foldl_map]
    have ex : ∀ x ∈ p.loc, ((F.tr t).apply x.v0).x = (t.apply x.v0).x + F.d.x := fun x _ => by rw [e]; rfl
    have ey : ∀ x ∈ p.loc, ((F.tr t).apply x.v0).y = (t.apply x.v0).y + F.d.y := fun x _ => by rw [e]; rfl
    rw [fold_min_shift _ _ F.d.x inf p.loc hne ex (fun x hx => (abs_le.1 (here x hx).1).2) (fun x hx => (abs_le.1 (there x hx).1).2),
      fold_min_shift _ _ F.d.y inf p.loc hne ey (fun x hx => (abs_le.1 (here x hx).2).2) (fun x hx => (abs_le.1 (there x hx).2).2),
      fold_max_shift _ _ F.d.x inf p.loc hne ex (fun x hx => (abs_le.1 (here x hx).1).1) (fun x hx => (abs_le.1 (there x hx).1).1),
      fold_max_shift _ _ F.d.y inf p.loc hne ey (fun x hx => (abs_le.1 (here x hx).2).1) (fun x hx => (abs_le.1 (there x hx).2).1)]
    ext <;> simp only <;> ring

/-- **C109.** In a displaced world two shapes get the displaced contacts, whether or not the search has something kept. -/
theorem C109_shifted {F : Frame K} (hr : F.r = ⟨1, 0⟩) {M : Mth K} (hM : M.Lawful) (tiny : K) (ta tb : Transform K) (sa sb : Cls K) (ha hb : BitVec 64)
    (na : F.Near B inf (cachedShape inf ta sa ha).cls) (nb : F.Near B inf (cachedShape inf tb sb hb).cls)
    (hm : Small (4 * B) ((cachedShape inf ta sa ha).bb.center.sub (cachedShape inf tb sb hb).bb.center)) (id : Nat) :
    collide M inf tiny (cachedShape inf (F.tr ta) sa ha) (cachedShape inf (F.tr tb) sb hb) id =
      (collide M inf tiny (cachedShape inf ta sa ha) (cachedShape inf tb sb hb) id).map F.info := by
  obtain ⟨hF, hv, -⟩ := unturned hr
  have ax : (cachedShape inf (F.tr ta) sa ha).bb.center.sub (cachedShape inf (F.tr tb) sb hb).bb.center =
      (cachedShape inf ta sa ha).bb.center.sub (cachedShape inf tb sb hb).bb.center := by
    rw [C109_box hr ta sa ha na, C109_box hr tb sb hb nb]
    simp only [BB.offset, BB.center, V2.lerp, V2.sub, V2.add, V2.scale]; ext <;> simp only <;> ring
  refine C109_collide_partial hF hM tiny (C109_cached hF inf ta sa ha) (C109_cached hF inf tb sb hb) na nb id (fun _ => ⟨?_, hm, ?_⟩) (fun _ _ _ _ _ => hr)
  · rw [hv, ax]
  · rw [ax]; exact hm

namespace Spec
/-- The surface of a shape, in the frame. -/
def Frame.surface (F : Frame K) (s : Surface K) : Surface K := { s with velocity := F.vec s.velocity }
/-- A contact with its places not yet measured from the bodies, in the frame. -/
def Frame.absolute (F : Frame K) (c : Contact K) : Contact K := { c with r1 := F.pt c.r1, r2 := F.pt c.r2 }
end Spec

/-- **C109.** Filled with the contacts found in a frame, a collision is the one of the frame; what the solver makes of it is C91. -/
theorem C109_arbiter {F : Frame K} (hF : F.Turn) (arb : Arbiter K) (arr : List (Contact K)) (n pa pb : V2 K) (sa sb : Surface K) (swapped : Bool) :
    (F.arb arb).update (arr.map F.absolute) (F.vec n) (F.pt pa) (F.pt pb) (F.surface sa) (F.surface sb) swapped = F.arb (arb.update arr n pa pb sa sb swapped) := by
  have copy : ∀ (old : List (Contact K)) (c : Contact K), copyOld (old.map F.contact) (F.contact c) = F.contact (copyOld old c) := by
    intro old
    induction old with
    | nil => intro c; rfl
    | cons o old ih =>
      intro c
      have : (if (F.contact c).hash = (F.contact o).hash then { F.contact c with jnAcc := (F.contact o).jnAcc, jtAcc := (F.contact o).jtAcc } else F.contact c) =
          F.contact (if c.hash = o.hash then { c with jnAcc := o.jnAcc, jtAcc := o.jtAcc } else c) := by
        show (if c.hash = o.hash then _ else _) = _
        split <;> rfl
      simp only [copyOld, List.map_cons, List.foldl_cons] at ih ⊢
      rw [this]; exact ih _
  have each : ∀ c : Contact K, refreshContact (F.arb arb).contacts (F.pt pa) (F.pt pb) (F.absolute c) = F.contact (refreshContact arb.contacts pa pb c) := by
    intro c
    unfold refreshContact
    rw [← copy]
    simp only [Frame.arb, Frame.absolute, Frame.contact, Frame.pt_sub]
  simp only [Arbiter.update]
  simp only [Frame.arb, Frame.surface, List.map_map, Frame.vec_sub, Frame.vec_dot hF, Frame.vec_scale]
  congr 1
  refine List.map_congr_left fun c _ => ?_
  exact each c

/-- **C109.** In a displaced world the same pairs of shapes are found touching, in the same order. -/
theorem C109_found {F : Frame K} (hr : F.r = ⟨1, 0⟩) {M : Mth K} (hM : M.Lawful) (tiny : K) (tr : Nat → Transform K) (cls : Nat → Cls K) (hash : Nat → BitVec 64)
    (body : Nat → Nat) (flt : Nat → ShapeFilter) (barred : Nat → Nat → Bool) (ids : Nat → Nat → Nat) (reported : List (Nat × Nat))
    (hn : ∀ p ∈ reported, ∀ x, x = p.1 ∨ x = p.2 → F.Near B inf (cachedShape inf (tr x) (cls x) (hash x)).cls)
    (hm : ∀ p ∈ reported, Small (4 * B) ((cachedShape inf (tr p.1) (cls p.1) (hash p.1)).bb.center.sub (cachedShape inf (tr p.2) (cls p.2) (hash p.2)).bb.center)) :
    foundPairs M inf tiny (fun x => cachedShape inf (F.tr (tr x)) (cls x) (hash x)) ids
        (narrowPairs body flt (fun x => (cachedShape inf (F.tr (tr x)) (cls x) (hash x)).bb) barred reported) =
      foundPairs M inf tiny (fun x => cachedShape inf (tr x) (cls x) (hash x)) ids
        (narrowPairs body flt (fun x => (cachedShape inf (tr x) (cls x) (hash x)).bb) barred reported) := by
  unfold foundPairs narrowPairs
  rw [List.filter_filter, List.filter_filter]
  refine List.filter_congr fun p hp => ?_
  have n1 := hn p hp p.1 (Or.inl rfl)
  have n2 := hn p hp p.2 (Or.inr rfl)
  have b1 := C109_box hr (tr p.1) (cls p.1) (hash p.1) n1
  have b2 := C109_box hr (tr p.2) (cls p.2) (hash p.2) n2
  have hi : ∀ (x y : BB K) (v : V2 K), (x.offset v).intersects (y.offset v) = x.intersects y := by
    intro x y v; simp only [BB.intersects, BB.offset, add_le_add_iff_right]
  congr 1
  · unfold touches
    rw [C109_shifted hr hM tiny _ _ _ _ _ _ n1 n2 (hm p hp)]
    cases collide M inf tiny (cachedShape inf (tr p.1) (cls p.1) (hash p.1)) (cachedShape inf (tr p.2) (cls p.2) (hash p.2)) (ids p.1 p.2) with
    | none => rfl
    | some i => simp [Frame.info]
  · simp only [queryReject, b1, b2, hi]

end

/-- **C109, full statement**: contacts turn with the world. Those of two circles with the same middle do not: the normal is always (1, 0). -/
theorem C109_concentric {M : Mth ℚ} (hM : M.Lawful) : ∃ (F : Frame ℚ) (a b a' b' : CShape ℚ), F.Turn ∧ F.Sees a a' ∧ F.Sees b b' ∧
    collide M 1000 1 a' b' 0 ≠ (collide M 1000 1 a b 0).map F.info := by
  have h0 : M.sqrt 0 = 0 := by have := hM.sqrt_sq 0 le_rfl; simpa using this
  refine ⟨⟨⟨0, 1⟩, 0, ⟨0, 0⟩, ⟨0, 0⟩⟩, ⟨.circle ⟨⟨0, 0⟩, ⟨0, 0⟩, 1⟩, ⟨-1, -1, 1, 1⟩, 1, ⟨1, 0⟩⟩, ⟨.circle ⟨⟨0, 0⟩, ⟨0, 0⟩, 2⟩, ⟨-2, -2, 2, 2⟩, 2, ⟨1, 0⟩⟩,
    ⟨.circle ⟨⟨0, 0⟩, ⟨0, 0⟩, 1⟩, ⟨-1, -1, 1, 1⟩, 1, ⟨0, 1⟩⟩, ⟨.circle ⟨⟨0, 0⟩, ⟨0, 0⟩, 2⟩, ⟨-2, -2, 2, 2⟩, 2, ⟨0, 1⟩⟩, by norm_num [Frame.Turn], ?_, ?_, ?_⟩
  · exact ⟨by norm_num [Frame.cls, Frame.pt, Frame.vec, V2.add], rfl, by norm_num [Frame.vec]⟩
  · exact ⟨by norm_num [Frame.cls, Frame.pt, Frame.vec, V2.add], rfl, by norm_num [Frame.vec]⟩
  · norm_num [collide, collideSorted, Cls.order, circleToCircle, V2.sub, V2.lengthSq, V2.dot, h0, Frame.info, Frame.vec]

/-- A right triangle with sides 3/2, 2 and 5/2, a square of side 2, and a turn by the angle of a triangle with sides 3, 4 and 5. -/
def exCorner : Cls ℚ := .poly (Poly.new gridMth [⟨0, 0⟩, ⟨3/2, 0⟩, ⟨0, 2⟩] 0)
def exTile : Cls ℚ := .poly (Poly.new gridMth (boxVerts ⟨-1, -1, 1, 1⟩) 0)
def exTurn345 : Frame ℚ := ⟨⟨3/5, 4/5⟩, 0, ⟨0, 0⟩, ⟨0, 0⟩⟩

/-- **C109, full statement**: the same for any turn and nothing kept from the last time. Here the depth is the same in two directions, and which of them is
reported depends on the boxes: the triangle and the square have one contact as they are and two when turned. (All roots taken here are exact.) -/
theorem C109_fresh_turned : exTurn345.Turn ∧
    ((collide gridMth 100000 (1/1000) (cachedShape 100000 ⟨1, 0, 0, 1, 0, 0⟩ exCorner 1) (cachedShape 100000 ⟨1, 0, 0, 1, 1/2, 2⟩ exTile 2) 0).map fun i => i.contacts.length) = some 1 ∧
    ((collide gridMth 100000 (1/1000) (cachedShape 100000 (exTurn345.tr ⟨1, 0, 0, 1, 0, 0⟩) exCorner 1) (cachedShape 100000 (exTurn345.tr ⟨1, 0, 0, 1, 1/2, 2⟩) exTile 2) 0).map
      fun i => i.contacts.length) = some 2 := by
  refine ⟨by norm_num [Frame.Turn, exTurn345], by decide +kernel, by decide +kernel⟩

/-- A square and a rod across it, displaced by (3, 4). -/
example : (⟨⟨1, 0⟩, 0, ⟨3, 4⟩, ⟨0, 0⟩⟩ : Frame ℝ).Near 10 1000 (cachedShape 1000 ⟨1, 0, 0, 1, 0, 0⟩ (.poly (Poly.new realMth [⟨1, -1⟩, ⟨1, 1⟩, ⟨-1, 1⟩, ⟨-1, -1⟩] 0)) 1).cls ∧
    (⟨⟨1, 0⟩, 0, ⟨3, 4⟩, ⟨0, 0⟩⟩ : Frame ℝ).Near 10 1000 (cachedShape 1000 ⟨1, 0, 0, 1, 0, 0⟩ (.segment (Segment.new realMth ⟨0, 0⟩ ⟨5, 0⟩ 1)) 2).cls ∧
    Small (4 * 10) ((cachedShape (1000 : ℝ) ⟨1, 0, 0, 1, 0, 0⟩ (.poly (Poly.new realMth [⟨1, -1⟩, ⟨1, 1⟩, ⟨-1, 1⟩, ⟨-1, -1⟩] 0)) 1).bb.center.sub
      (cachedShape (1000 : ℝ) ⟨1, 0, 0, 1, 0, 0⟩ (.segment (Segment.new realMth ⟨0, 0⟩ ⟨5, 0⟩ 1)) 2).bb.center) := by
  refine ⟨⟨?_, ?_, ?_, by norm_num⟩, ⟨?_, ?_, ?_, by norm_num⟩, ?_⟩
  · simp [cachedShape, Cls.cache, Poly.cache, corners, Poly.new, Poly.setVerts, setVertsGo]
  · intro v hv
    simp only [cachedShape, Cls.cache, Poly.cache, corners, Poly.new, Poly.setVerts, setVertsGo, List.map_cons, List.map_nil, List.mem_cons, List.not_mem_nil, or_false] at hv
    rcases hv with rfl | rfl | rfl | rfl <;> norm_num [Transform.apply, abs_le]
  · intro v hv
    simp only [cachedShape, Cls.cache, Poly.cache, corners, Poly.new, Poly.setVerts, setVertsGo, Frame.cls, Frame.plane, List.map_cons, List.map_nil, List.mem_cons, List.not_mem_nil, or_false] at hv
    rcases hv with rfl | rfl | rfl | rfl <;> norm_num [Transform.apply, Frame.pt, Frame.vec, V2.add, abs_le]
  · simp [cachedShape, Cls.cache, corners]
  · intro v hv
    simp only [cachedShape, Cls.cache, Segment.cache, Segment.new, corners, List.mem_cons, List.not_mem_nil, or_false] at hv
    rcases hv with rfl | rfl <;> norm_num [Transform.apply, abs_le]
  · intro v hv
    simp only [cachedShape, Cls.cache, Segment.cache, Segment.new, corners, Frame.cls, List.mem_cons, List.not_mem_nil, or_false] at hv
    rcases hv with rfl | rfl <;> norm_num [Transform.apply, Frame.pt, Frame.vec, V2.add, abs_le]
  · norm_num [Small, cachedShape, Cls.cache, Poly.cache, Segment.cache, Segment.new, Poly.new, Poly.setVerts, setVertsGo, Transform.apply, BB.center, V2.lerp, V2.sub, V2.add, V2.scale, abs_le]

end Cm
