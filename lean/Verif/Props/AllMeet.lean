import Verif.Props.JointsMeet
/-! # C146: with enough iterations contacts and joints all hold together -/
set_option linter.unusedSectionVars false
set_option linter.unusedSimpArgs false
set_option linter.unusedVariables false

namespace Cm
open Spec Descent
variable {K : Type} [Field K] [LinearOrder K] [IsStrictOrderedRing K]

namespace Spec
/-- With the velocities `w` all joints of `s` have what they ask for, all contacts part as fast as they ask for or faster, and immovable bodies move as in `s`. -/
structure Allows (s : SolverState K) (w : Flow K) : Prop where
  joints : Agrees s w
  contacts : ∀ c ∈ allTouches .impacts s.arbs, c.goal ≤ c.speed w

/-- The impulses of the contacts, each times the speed by which `w` parts its contact faster than it asks for. -/
def idlePush (s : SolverState K) (w : Flow K) : K := ((allTouches .impacts s.arbs).map fun c => c.load * (c.speed w - c.goal)).sum
end Spec

/-! ## A sweep and then a pass -/
section
variable {V : Type} [AddCommGroup V] [Module K V] {B : V →ₗ[K] V →ₗ[K] K}

/-- What falls and stays above zero falls by less and less. -/
theorem falls_less [Archimedean K] {E : Nat → K} (h0 : ∀ n, 0 ≤ E n) (h1 : ∀ n, E (n + 1) ≤ E n) : ∀ ε > 0, ∃ n0, ∀ n ≥ n0, E n - E (n + 1) ≤ ε := by
  intro ε hε
  by_contra hno
  push Not at hno
  have anti : Antitone E := antitone_nat_of_succ_le h1
  have step : ∀ k : Nat, ∃ n, E n ≤ E 0 - k * ε := by
    intro k
    induction k with
    | zero => exact ⟨0, by simp⟩
    | succ k ih =>
      obtain ⟨n, hn⟩ := ih
      obtain ⟨m, hm, hlt⟩ := hno n
      refine ⟨m + 1, ?_⟩
      have := anti hm
      push_cast
      linarith
  obtain ⟨k, hk⟩ := exists_nat_gt (E 0 / ε)
  rw [div_lt_iff₀ hε] at hk
  obtain ⟨n, hn⟩ := step k
  linarith [h0 n]

theorem mix_falls (sym : ∀ x y, B x y = B y x) (psd : ∀ x, 0 ≤ B x x) {ps : List (Row K V × K)} {L : List (List V)} {x x' : V}
    (hp : ∀ p ∈ ps, 0 < B p.1.d p.1.d ∧ 0 ≤ p.2) (hpass : Tie.Pass B L (sweep B ps x).1 x') :
    pot B (sweep B ps x).2 x' + used B ps x + (B (sweep B ps x).1 (sweep B ps x).1 - B x' x') ≤ pot B ps x ∧ B x' x' ≤ B (sweep B ps x).1 (sweep B ps x).1 := by
  have h1 := sweep_pot sym ps x hp
  have h2 := Tie.pass_falls sym psd _ _ _ hpass
  refine ⟨?_, h2⟩
  unfold pot at h1 ⊢
  linarith

theorem used_nonneg {ps : List (Row K V × K)} : ∀ {x : V}, (∀ p ∈ ps, 0 < B p.1.d p.1.d) → 0 ≤ used B ps x := by
  induction ps with
  | nil => intro x _; exact le_rfl
  | cons q l ih => intro x hl; exact add_nonneg (mul_nonneg (hl q (by simp)).le (sq_nonneg _)) (ih fun p hp => hl p (by simp [hp]))

/-- If an iteration lowers the potential by little, all constraints are nearly met after it. -/
theorem mix_met (sym : ∀ x y, B x y = B y x) (psd : ∀ x, 0 ≤ B x x) {ps : List (Row K V × K)} {L : List (List V)} {x x' : V} {C α : K} (hC : 0 ≤ C) (hα : 0 < α)
    (hp : ∀ p ∈ ps, 0 < B p.1.d p.1.d ∧ 0 ≤ p.2) (h1 : ∀ p ∈ ps, ∀ p' ∈ ps, |B p.1.d p'.1.d| ≤ C) (h2 : ∀ p ∈ ps, α ≤ B p.1.d p.1.d)
    (h3 : ∀ ds ∈ L, ∀ d ∈ ds, B d d ≤ C) (hpass : Tie.Pass B L (sweep B ps x).1 x') {η : K} (hη : 0 ≤ η)
    (hs : (C ^ 2 * ps.length / α + 2 ^ L.length * C) * (pot B ps x - pot B (sweep B ps x).2 x') ≤ η ^ 2) :
    (∀ p ∈ (sweep B ps x).2, -(2 * η) ≤ B p.1.d x' + p.1.ws) ∧ ∀ ds ∈ L, ∀ d ∈ ds, |B d x'| ≤ η := by
  obtain ⟨f1, f2⟩ := mix_falls sym psd hp hpass
  have u0 := used_nonneg (x := x) fun p h => (hp p h).1
  set Δ := pot B ps x - pot B (sweep B ps x).2 x' with hΔ
  set y := (sweep B ps x).1 with hy
  have d1 : used B ps x ≤ Δ := by linarith
  have d2 : B y y - B x' x' ≤ Δ := by linarith
  have d0 : 0 ≤ Δ := u0.trans d1
  have a1 : 0 ≤ C ^ 2 * ps.length / α * Δ := by positivity
  have a2 : 0 ≤ 2 ^ L.length * C * Δ := by positivity
  have e1 : C ^ 2 * ps.length / α * Δ ≤ η ^ 2 := by linarith
  have e2 : 2 ^ L.length * C * Δ ≤ η ^ 2 := by linarith
  have q2 : ∀ d : V, B d d ≤ C → 2 ^ L.length * B d d * (B y y - B x' x') ≤ η ^ 2 := by
    intro d hd
    have n1 : 2 ^ L.length * B d d ≤ 2 ^ L.length * C := mul_le_mul_of_nonneg_left hd (by positivity)
    have n2 : 0 ≤ B y y - B x' x' := by linarith
    exact ((mul_le_mul_of_nonneg_right n1 n2).trans (mul_le_mul_of_nonneg_left d2 (by positivity))).trans e2
  constructor
  · intro p hp'
    have m := (sweep_met hC ps x (fun p h => (hp p h).1) h1 p hp').1
    have T0 := travel_nonneg (B := B) ps x
    have T1 := travel_used hα.le ps x h2
    have T2 : (C * travel B ps x) ^ 2 ≤ η ^ 2 := by
      refine le_trans ?_ e1
      have : travel B ps x ^ 2 ≤ ps.length * used B ps x / α := by rw [le_div_iff₀ hα]; linarith
      calc (C * travel B ps x) ^ 2 = C ^ 2 * travel B ps x ^ 2 := by ring
        _ ≤ C ^ 2 * (ps.length * used B ps x / α) := mul_le_mul_of_nonneg_left this (sq_nonneg _)
        _ = C ^ 2 * ps.length / α * used B ps x := by ring
        _ ≤ C ^ 2 * ps.length / α * Δ := mul_le_mul_of_nonneg_left d1 (by positivity)
    have T3 := abs_le_of_sq_le_sq T2 hη
    rw [abs_of_nonneg (mul_nonneg hC T0)] at T3
    obtain ⟨p0, hp0, e0⟩ : ∃ p0 ∈ ps, p0.1 = p.1 := by
      have : p.1 ∈ (sweep B ps x).2.map Prod.fst := List.mem_map.2 ⟨p, hp', rfl⟩
      rw [sweep_rows] at this
      exact List.mem_map.1 this
    have dd : B p.1.d p.1.d ≤ C := by rw [← e0]; exact (le_abs_self _).trans (h1 p0 hp0 p0 hp0)
    have c := Tie.pass_change sym psd p.1.d _ _ _ hpass
    have S := abs_le_of_sq_le_sq (c.trans (q2 _ dd)) hη
    rw [map_sub] at S
    have := (abs_le.1 S).1
    linarith
  · intro ds hds d hd
    exact abs_le_of_sq_le_sq ((Tie.pass_met sym psd _ _ _ hpass ds hds d hd).trans (q2 d (h3 ds hds d hd))) hη
end

/-! ## The iterations -/

/-- The constraint of a contact. -/
def bareRow (μ ι : Nat → K) (w : Flow K) (c : Touch K) : Row K (Flow K) := ⟨dvec μ ι c, c.speed w - c.goal, 0⟩
def bareRows (μ ι : Nat → K) (w : Flow K) (t : SolverState K) : List (Row K (Flow K) × K) := (allTouches .impacts t.arbs).map fun c => (bareRow μ ι w c, c.load)

theorem bare_pot (N : Nat) {μ ι : Nat → K} (w : Flow K) (t : SolverState K) (hm : ∀ k, (t.bodies k).mInv = μ k ∧ (t.bodies k).iInv = ι k) :
    pot (form N μ ι) (bareRows μ ι w t) (away .impacts t.bodies w) = effort N t.bodies w + 2 * idlePush t w := by
  rw [pot, effort_eq hm, idlePush, bareRows, List.map_map]
  rfl

/-- Contacts without friction. -/
abbrev FitSmooth : V2 K → V2 K → K → Contact K → Prop := fun n sv fr c => sv.dot n = 0 ∧ fr = 0 ∧ c.jtAcc = 0

/-- What the iterations keep. -/
structure Mixed (N : Nat) (s t : SolverState K) (w : Flow K) : Prop where
  same : ∀ k, SameBut (s.bodies k) (t.bodies k)
  links : ∀ l ∈ t.arbs, PrimeLink .impacts FitSmooth N (fun k => (s.bodies k).mInv) (fun k => (s.bodies k).iInv) l
  rows : (bareRows (fun k => (s.bodies k).mInv) (fun k => (s.bodies k).iInv) w t).map Prod.fst = (bareRows (fun k => (s.bodies k).mInv) (fun k => (s.bodies k).iInv) w s).map Prod.fst
  ties : t.joints.map tie = s.joints.map tie
  joints : ∀ l ∈ t.joints, l.ia < N ∧ l.ib < N ∧ l.ia ≠ l.ib ∧ Tied l.it (s.bodies l.ia) (s.bodies l.ib) ∧ MeetsAll w (tie l)
  reach : Reach (fun k => (s.bodies k).mInv) (fun k => (s.bodies k).iInv) (away .impacts t.bodies w)

theorem bare_good {N : Nat} {s t : SolverState K} {w : Flow K} (h : Mixed N s t w) :
    ∀ p ∈ bareRows (fun k => (s.bodies k).mInv) (fun k => (s.bodies k).iInv) w t,
      0 < form N (fun k => (s.bodies k).mInv) (fun k => (s.bodies k).iInv) p.1.d p.1.d ∧ 0 ≤ p.2 := by
  intro p hp
  obtain ⟨c, hc, rfl⟩ := List.mem_map.1 hp
  have := rows_good (P := (allTouches .impacts t.arbs).map fun c => (c, (0 : K))) (by simp [Function.comp_def]) h.links (c, 0) (List.mem_map.2 ⟨c, hc, rfl⟩)
  exact ⟨this.1, this.2.1⟩

theorem mix_once {M : Mth K} (hM : M.Lawful) (dt : K) {N : Nat} {s t : SolverState K} {w : Flow K} (h : Mixed N s t w)
    (hf : ∀ l ∈ (t.iterate M dt).joints, Unstrained dt l.it) :
    let μ := fun k => (s.bodies k).mInv
    let ι := fun k => (s.bodies k).iInv
    Mixed N s (t.iterate M dt) w ∧
    bareRows μ ι w (t.iterate M dt) = (sweep (form N μ ι) (bareRows μ ι w t) (away .impacts t.bodies w)).2 ∧
    Tie.Pass (form N μ ι) ((s.joints.map tie).map (dirs μ ι)) (sweep (form N μ ι) (bareRows μ ι w t) (away .impacts t.bodies w)).1 (away .impacts (t.iterate M dt).bodies w) := by
  intro μ ι
  have gd := bare_good h
  have hm : ∀ k, (t.bodies k).mInv = μ k ∧ (t.bodies k).iInv = ι k := fun k => ⟨(h.same k).masses.2.1, (h.same k).masses.2.2.2.1⟩
  obtain ⟨P', j1, j2, j3, j4, j5⟩ := links_sweep (u := w) impacts_act t.arbs ((allTouches .impacts t.arbs).map fun c => (c, (0 : K))) t.bodies
    (by simp [Function.comp_def]) hm h.links h.reach
  have er : ((allTouches .impacts t.arbs).map fun c => (c, (0 : K))).map (rowOf μ ι w) = bareRows μ ι w t := by
    rw [List.map_map]; rfl
  rw [er] at j2
  have k1 := congrArg Prod.fst j2
  have k2 := congrArg Prod.snd j2
  simp only at k1 k2
  have z0 : ∀ p ∈ (sweep (form N μ ι) (bareRows μ ι w t) (away .impacts t.bodies w)).2, p.1.ls = 0 ∧ 0 ≤ p.2 :=
    sweep_good (P := fun r => r.ls = 0) _ _ fun p hp => ⟨by obtain ⟨c, -, rfl⟩ := List.mem_map.1 hp; rfl, (gd p hp).2⟩
  have eb : bareRows μ ι w (t.iterate M dt) = (sweep (form N μ ι) (bareRows μ ι w t) (away .impacts t.bodies w)).2 := by
    have e1 : bareRows μ ι w (t.iterate M dt) = P'.map fun p => (bareRow μ ι w p.1, p.1.load) := by
      show (allTouches .impacts (linkLoop (fun arb a b => arb.applyImpulse a b) t.arbs t.bodies).2).map _ = _
      rw [← j1, List.map_map]; rfl
    rw [e1, ← k2]
    refine List.map_congr_left fun p hp => ?_
    have := (z0 (rowOf μ ι w p) (by rw [← k2]; exact List.mem_map.2 ⟨p, hp, rfl⟩)).1
    have hp0 : p.2 = 0 := this
    simp only [bareRow, rowOf, hp0]
  have sb : ∀ k, SameBut (s.bodies k) ((linkLoop (fun arb a b => arb.applyImpulse a b) t.arbs t.bodies).1 k) := fun k => (h.same k).trans (j3 k)
  obtain ⟨p1, p2, p3, p4⟩ := joints_pass hM dt (N := N) (w := w) s.bodies (fun k => ⟨rfl, rfl⟩) t.joints
    (linkLoop (fun (arb : Arbiter K) a b => arb.applyImpulse a b) t.arbs t.bodies).1 sb     h.joints hf j5
  rw [h.ties] at p1 p2
  refine ⟨⟨fun k => ?_, j4, ?_, p2, p3, p4⟩, eb, ?_⟩
  · exact (sb k).trans (linkLoop_place (fun jt a b => jt.applyImpulse M a b dt) (fun x a b => jointNudge M dt x a b) t.joints _ k)
  · show (bareRows μ ι w (t.iterate M dt)).map Prod.fst = _
    rw [eb, sweep_rows]
    exact h.rows
  · rw [← k1]
    exact p1

theorem mix_all {M : Mth K} (hM : M.Lawful) (dt : K) {N : Nat} {s : SolverState K} {w : Flow K} (h : Mixed N s s w)
    (hf : ∀ n, ∀ l ∈ ((SolverState.iterate M dt)^[n + 1] s).joints, Unstrained dt l.it) (n : Nat) : Mixed N s ((SolverState.iterate M dt)^[n] s) w := by
  induction n with
  | zero => exact h
  | succ n ih =>
    have := hf n
    rw [Function.iterate_succ_apply'] at this ⊢
    exact (mix_once hM dt ih this).1

theorem mix_start {N : Nat} {s : SolverState K} {w : Flow K} (ha : ∀ l ∈ s.arbs, Primed .impacts (fun k => (s.bodies k).mInv) (fun k => (s.bodies k).iInv) l ∧ Smooth l)
    (hj : ∀ l ∈ s.joints, l.ia ≠ l.ib ∧ Tied l.it (s.bodies l.ia) (s.bodies l.ib)) (hw : Agrees s w)
    (hN : (∀ l ∈ s.arbs, l.ia < N ∧ l.ib < N) ∧ ∀ l ∈ s.joints, l.ia < N ∧ l.ib < N) : Mixed N s s w :=
  ⟨fun _ => rfl, fun l m => ⟨(hN.1 l m).1, (hN.1 l m).2, (ha l m).1.ne, (ha l m).1.unit, fun c hc => ⟨⟨(ha l m).2.2.1, (ha l m).2.1, (ha l m).2.2.2 c hc⟩, (ha l m).1.contacts c hc⟩⟩,
    rfl, rfl, fun l m => ⟨(hN.2 l m).1, (hN.2 l m).2, (hj l m).1, (hj l m).2, (met_iff l w).1 (hw.met l m)⟩, agrees_reach hw⟩

/-- No iteration takes the velocities further away from velocities `w` that joints and contacts allow, where the pushes in contacts that part faster in `w` than they ask for count as distance. -/
theorem C146_nearer {M : Mth K} (hM : M.Lawful) (dt : K) (s : SolverState K) (hm : ∀ k, 0 ≤ (s.bodies k).mInv ∧ 0 ≤ (s.bodies k).iInv)
    (ha : ∀ l ∈ s.arbs, Primed .impacts (fun k => (s.bodies k).mInv) (fun k => (s.bodies k).iInv) l ∧ Smooth l)
    (hj : ∀ l ∈ s.joints, l.ia ≠ l.ib ∧ Tied l.it (s.bodies l.ia) (s.bodies l.ib))
    (hf : ∀ n, ∀ l ∈ ((SolverState.iterate M dt)^[n + 1] s).joints, Unstrained dt l.it) (w : Flow K) (hw : Allows s w)
    (N : Nat) (hN : (∀ l ∈ s.arbs, l.ia < N ∧ l.ib < N) ∧ ∀ l ∈ s.joints, l.ia < N ∧ l.ib < N) (n : Nat) :
    effort N ((SolverState.iterate M dt)^[n + 1] s).bodies w + 2 * idlePush ((SolverState.iterate M dt)^[n + 1] s) w ≤
      effort N ((SolverState.iterate M dt)^[n] s).bodies w + 2 * idlePush ((SolverState.iterate M dt)^[n] s) w ∧
    0 ≤ idlePush ((SolverState.iterate M dt)^[n] s) w := by
  have mx := mix_all hM dt (mix_start ha hj hw.joints hN) hf
  have un := hf n
  have m1 := mx n
  have m2 := mx (n + 1)
  have ms : ∀ k, _ := fun k => (⟨(m1.same k).masses.2.1, (m1.same k).masses.2.2.2.1⟩ : _ ∧ _)
  have ms' : ∀ k, _ := fun k => (⟨(m2.same k).masses.2.1, (m2.same k).masses.2.2.2.1⟩ : _ ∧ _)
  constructor
  · rw [← bare_pot N w _ ms, ← bare_pot N w _ ms']
    rw [Function.iterate_succ_apply'] at un ⊢
    obtain ⟨-, o2, o3⟩ := mix_once hM dt m1 un
    have f := mix_falls (form_sym _ _ _) (form_nonneg (fun k => (hm k).1) (fun k => (hm k).2)) (bare_good m1) o3
    rw [← o2] at f
    have u0 := used_nonneg (x := away .impacts ((SolverState.iterate M dt)^[n] s).bodies w) fun p h => (bare_good m1 p h).1
    linarith [f.1, f.2]
  · refine List.sum_nonneg fun z hz => ?_
    obtain ⟨c, hc, rfl⟩ := List.mem_map.1 hz
    refine mul_nonneg (bare_good m1 (_, c.load) (List.mem_map.2 ⟨c, hc, rfl⟩)).2 (sub_nonneg.2 ?_)
    have : bareRow (fun k => (s.bodies k).mInv) (fun k => (s.bodies k).iInv) w c ∈ (bareRows (fun k => (s.bodies k).mInv) (fun k => (s.bodies k).iInv) w ((SolverState.iterate M dt)^[n] s)).map Prod.fst := by
      rw [bareRows, List.map_map]; exact List.mem_map.2 ⟨c, hc, rfl⟩
    rw [m1.rows, bareRows, List.map_map] at this
    obtain ⟨c0, h0, e0⟩ := List.mem_map.1 this
    have e1 : c0.speed w - c0.goal = c.speed w - c.goal := congrArg Row.ws e0
    have := hw.contacts c0 h0
    linarith

/-- **C146**. Contacts without friction, and pins, pivots, gears and motors, in any number and arrangement, no joint at its greatest force: if there are velocities with which all joints have
what they ask for and all contacts part at least as fast as they ask for, then the iterations bring all this about as exactly as one likes. -/
theorem C146_all_meet [Archimedean K] {M : Mth K} (hM : M.Lawful) (dt : K) (s : SolverState K) (hm : ∀ k, 0 ≤ (s.bodies k).mInv ∧ 0 ≤ (s.bodies k).iInv)
    (ha : ∀ l ∈ s.arbs, Primed .impacts (fun k => (s.bodies k).mInv) (fun k => (s.bodies k).iInv) l ∧ Smooth l)
    (hj : ∀ l ∈ s.joints, l.ia ≠ l.ib ∧ Tied l.it (s.bodies l.ia) (s.bodies l.ib))
    (hf : ∀ n, ∀ l ∈ ((SolverState.iterate M dt)^[n + 1] s).joints, Unstrained dt l.it) (hw : ∃ w, Allows s w) :
    ∀ ε > 0, ∃ n0, ∀ n ≥ n0,
      (∀ c ∈ allTouches .impacts s.arbs, c.goal - ε ≤ c.speed fun k => Channel.impacts.flow (((SolverState.iterate M dt)^[n] s).bodies k)) ∧
      ∀ l ∈ s.joints, ∀ m ∈ misses l.it (Channel.impacts.flow (((SolverState.iterate M dt)^[n] s).bodies l.ia)) (Channel.impacts.flow (((SolverState.iterate M dt)^[n] s).bodies l.ib)), |m| ≤ ε := by
  obtain ⟨w, hw⟩ := hw
  obtain ⟨N1, hN1⟩ := bound_links s.arbs
  obtain ⟨N2, hN2⟩ := bound_joints s.joints
  obtain ⟨N, hN⟩ : ∃ N, (∀ l ∈ s.arbs, l.ia < N ∧ l.ib < N) ∧ ∀ l ∈ s.joints, l.ia < N ∧ l.ib < N :=
    ⟨max N1 N2, fun l h => by have := hN1 l h; omega, fun l h => by have := hN2 l h; omega⟩
  have mx := mix_all hM dt (mix_start ha hj hw.joints hN) hf
  have near := C146_nearer hM dt s hm ha hj hf w hw N hN
  set μ := fun k => (s.bodies k).mInv with hμ
  set ι := fun k => (s.bodies k).iInv with hι
  set L := (s.joints.map tie).map (dirs μ ι) with hL
  set R := (bareRows μ ι w s).map Prod.fst with hR
  have sym := form_sym N μ ι
  have psd := form_nonneg (N := N) (μ := μ) (ι := ι) (fun k => (hm k).1) (fun k => (hm k).2)
  -- bounds for all constraints
  obtain ⟨C0, c0, hC0⟩ := Tie.bounded (B := form N μ ι) (R.map Row.d ++ L.flatten)
  obtain ⟨α, hα, hαb⟩ : ∃ α : K, 0 < α ∧ ∀ r ∈ R, α ≤ form N μ ι r.d r.d := by
    have : ∀ l : List (Row K (Flow K)), (∀ r ∈ l, 0 < form N μ ι r.d r.d) → ∃ α : K, 0 < α ∧ ∀ r ∈ l, α ≤ form N μ ι r.d r.d := by
      intro l
      induction l with
      | nil => intro _; exact ⟨1, one_pos, by simp⟩
      | cons q l ih =>
        intro hl
        obtain ⟨C, c1, c2⟩ := ih fun r hr => hl r (by simp [hr])
        refine ⟨min C (form N μ ι q.d q.d), lt_min c1 (hl q (by simp)), fun q' hq' => ?_⟩
        rcases List.mem_cons.1 hq' with rfl | hq'
        · exact min_le_right _ _
        · exact (min_le_left _ _).trans (c2 q' hq')
    refine this _ fun r hr => ?_
    obtain ⟨p, hp, rfl⟩ := List.mem_map.1 hr
    exact (bare_good (mx 0) p hp).1
  have hRb : ∀ r ∈ R, ∀ r' ∈ R, |form N μ ι r.d r'.d| ≤ C0 := by
    intro r hr r' hr'
    have b1 := hC0 r.d (List.mem_append_left _ (List.mem_map.2 ⟨r, hr, rfl⟩))
    have b2 := hC0 r'.d (List.mem_append_left _ (List.mem_map.2 ⟨r', hr', rfl⟩))
    refine abs_le_of_sq_le_sq ((Tie.cauchy sym psd r.d r'.d).trans ?_) c0.le
    rw [sq]
    exact mul_le_mul b1 b2 (psd _) c0.le
  have hLb : ∀ ds ∈ L, ∀ d ∈ ds, form N μ ι d d ≤ C0 := fun ds hds d hd => hC0 d (List.mem_append_right _ (List.mem_flatten.2 ⟨ds, hds, hd⟩))
  set A := C0 ^ 2 * R.length / α + 2 ^ L.length * C0 with hA
  have A0 : 0 < A := by positivity
  set E := fun n => effort N ((SolverState.iterate M dt)^[n] s).bodies w + 2 * idlePush ((SolverState.iterate M dt)^[n] s) w with hE
  have ms : ∀ n k, (((SolverState.iterate M dt)^[n] s).bodies k).mInv = μ k ∧ (((SolverState.iterate M dt)^[n] s).bodies k).iInv = ι k :=
    fun n k => ⟨((mx n).same k).masses.2.1, ((mx n).same k).masses.2.2.2.1⟩
  have E0 : ∀ n, 0 ≤ E n := fun n => by
    have e := effort_eq (N := N) (ms n) w
    have := psd (away .impacts ((SolverState.iterate M dt)^[n] s).bodies w)
    have := (near n).2
    simp only [hE]
    linarith
  intro ε hε
  obtain ⟨n0, hn0⟩ := falls_less E0 (fun n => (near n).1) ((ε / 2) ^ 2 / A) (by positivity)
  refine ⟨n0 + 1, fun n hn => ?_⟩
  obtain ⟨n, rfl⟩ : ∃ m, n = m + 1 := ⟨n - 1, by omega⟩
  have small := hn0 n (by omega)
  rw [le_div_iff₀ A0] at small
  have un := hf n
  have mn := mx n
  have mn' := mx (n + 1)
  simp only [hE] at small
  rw [← bare_pot N w _ (ms n), ← bare_pot N w _ (ms (n + 1))] at small
  rw [Function.iterate_succ_apply'] at un mn' small ⊢
  obtain ⟨-, o2, o3⟩ := mix_once hM dt mn un
  set t := (SolverState.iterate M dt)^[n] s with ht
  have len : (bareRows μ ι w t).length = R.length := by
    have := congrArg List.length mn.rows
    rw [hR, List.length_map]
    simpa using this
  have inR : ∀ p ∈ bareRows μ ι w t, p.1 ∈ R := fun p hp => by
    rw [hR, ← mn.rows]; exact List.mem_map.2 ⟨p, hp, rfl⟩
  obtain ⟨r1, r2⟩ := mix_met sym psd c0.le hα (bare_good mn) (fun p hp p' hp' => hRb _ (inR p hp) _ (inR p' hp')) (fun p hp => hαb _ (inR p hp)) hLb o3 (η := ε / 2) (by positivity)
    (by rw [len, ← o2, mul_comm]; exact small)
  rw [← o2] at r1
  constructor
  · intro c hc
    have : bareRow μ ι w c ∈ R := by rw [hR, bareRows, List.map_map]; exact List.mem_map.2 ⟨c, hc, rfl⟩
    rw [hR, ← mn'.rows] at this
    obtain ⟨p, hp, e⟩ := List.mem_map.1 this
    have q := r1 p hp
    obtain ⟨l, hl, c', -, rfl⟩ := touch_links hc
    rw [e] at q
    simp only [bareRow] at q
    rw [form_dvec (hN.1 l hl).1 (hN.1 l hl).2 (ha l hl).1.ne mn'.reach, speed_away] at q
    show (touchOf Channel.impacts l c').goal - ε ≤ partSpeed _ _ _ (Channel.impacts.flow _) (Channel.impacts.flow _)
    linarith
  · intro l hl m hmm
    rw [misses_eq] at hmm
    obtain ⟨r, hr, rfl⟩ := List.mem_map.1 hmm
    have q := r2 (dirs μ ι (tie l)) (List.mem_map.2 ⟨_, List.mem_map.2 ⟨l, hl, rfl⟩, rfl⟩) (pulls μ ι l.ia l.ib r.1) (List.mem_map.2 ⟨r, hr, rfl⟩)
    rw [form_pulls r.1 (hN.2 l hl).1 (hN.2 l hl).2 (hj l hl).1 mn'.reach] at q
    have e3 : r.1.reads (w l.ia) (w l.ib) = r.2 := ((met_iff l w).1 (hw.joints.met l hl)) r hr
    simp only [away] at q
    rw [reads_sub, e3] at q
    linarith

/-- If the contacts start without impulses, the velocities never get further from allowed ones than they were at the start. -/
theorem C146_bounded {M : Mth K} (hM : M.Lawful) (dt : K) (s : SolverState K) (hm : ∀ k, 0 ≤ (s.bodies k).mInv ∧ 0 ≤ (s.bodies k).iInv)
    (ha : ∀ l ∈ s.arbs, Primed .impacts (fun k => (s.bodies k).mInv) (fun k => (s.bodies k).iInv) l ∧ Smooth l)
    (hj : ∀ l ∈ s.joints, l.ia ≠ l.ib ∧ Tied l.it (s.bodies l.ia) (s.bodies l.ib))
    (hf : ∀ n, ∀ l ∈ ((SolverState.iterate M dt)^[n + 1] s).joints, Unstrained dt l.it) (w : Flow K) (hw : Allows s w)
    (h0 : ∀ c ∈ allTouches .impacts s.arbs, c.load = 0)
    (N : Nat) (hN : (∀ l ∈ s.arbs, l.ia < N ∧ l.ib < N) ∧ ∀ l ∈ s.joints, l.ia < N ∧ l.ib < N) (n : Nat) :
    effort N ((SolverState.iterate M dt)^[n] s).bodies w ≤ effort N s.bodies w := by
  have near := C146_nearer hM dt s hm ha hj hf w hw N hN
  have z : idlePush s w = 0 := by
    refine List.sum_eq_zero fun y hy => ?_
    obtain ⟨c, hc, rfl⟩ := List.mem_map.1 hy
    rw [h0 c hc, zero_mul]
  have all : effort N ((SolverState.iterate M dt)^[n] s).bodies w + 2 * idlePush ((SolverState.iterate M dt)^[n] s) w ≤ effort N s.bodies w + 2 * idlePush s w := by
    induction n with
    | zero => exact le_rfl
    | succ n ih => exact (near n).1.trans ih
  rw [z] at all
  linarith [(near n).2]

/-! ## An example: a disc that falls on a ledge beside its centre and is kept from turning by a motor -/

noncomputable def exLedge (q : ℝ) : SolverState ℝ :=
  ⟨fun k => if k = 0 then { Body.blank with m := 1, mInv := 0, i := 1, iInv := 0 }
      else if k = 1 then { Body.blank with m := 1, mInv := 1, i := 1, iInv := 1, v := ⟨0, -q⟩ } else Body.blank,
    [⟨0, 1, ⟨0, 0, ⟨0, 0⟩, ⟨0, 1⟩, [⟨⟨1, 0⟩, ⟨1, 0⟩, 1/2, 1, 0, 1 - q, 0, 0, 0, 0⟩], .first, false⟩⟩],
    [⟨0, 1, .motor ⟨⟨3, 1, 1⟩, 0, 1, -(1 - q)⟩⟩]⟩

/-- Each iteration halves the speed of the fall. -/
theorem exLedge_step (q : ℝ) (h0 : 0 ≤ q) (h1 : q ≤ 1) : (exLedge q).iterate realMth 1 = exLedge (q / 2) := by
  have c0 : max (1 - q + q / 2) 0 = 1 - q / 2 := by rw [max_eq_left (by linarith)]; ring
  have c1 : clamp (-(1 - q) + -(q / 2)) (-(3 * 1)) (3 * 1) = -(1 - q / 2) := by
    rw [clamp_eq _ _ _ (by norm_num), min_eq_left (by linarith), max_eq_right (by linarith)]; ring
  have c2 : ∀ x : ℝ, clamp x 0 0 = 0 := fun x => by
    have := clamp_mem x (0 : ℝ) 0 le_rfl
    exact le_antisymm this.2 this.1
  have st : Arbiter.contactStep ⟨0, 1⟩ ⟨0, 0⟩ 0 ((exLedge q).bodies 0) ((exLedge q).bodies 1) ⟨⟨1, 0⟩, ⟨1, 0⟩, 1/2, 1, 0, 1 - q, 0, 0, 0, 0⟩ =
      ((exLedge q).bodies 0, { (exLedge q).bodies 1 with v := ⟨0, -(q / 2)⟩, w := q / 2 }, ⟨⟨1, 0⟩, ⟨1, 0⟩, 1/2, 1, 0, 1 - q / 2, 0, 0, 0, 0⟩) := by
    simp [Arbiter.contactStep, exLedge, relativeVelocity, applyBiasImpulses, applyImpulses, V2.dot, V2.add, V2.sub, V2.perp, V2.scale, V2.rotate, V2.zero, V2.cross, Body.blank, c2]
    have e : 1 - q + q * 2⁻¹ = 1 - q + q / 2 := by ring
    rw [e, c0]
    refine ⟨⟨?_, ?_⟩, rfl⟩ <;> ring
  have jt : SimpleMotor.applyImpulse ⟨⟨3, 1, 1⟩, 0, 1, -(1 - q)⟩ ((exLedge q).bodies 0) { (exLedge q).bodies 1 with v := ⟨0, -(q / 2)⟩, w := q / 2 } 1 =
      ((exLedge q).bodies 0, (exLedge (q / 2)).bodies 1, ⟨⟨3, 1, 1⟩, 0, 1, -(1 - q / 2)⟩) := by
    have e : -(1 - q) + -(q / 2 - 0 + 0) * 1 = -(1 - q) + -(q / 2) := by ring
    simp only [SimpleMotor.applyImpulse, spin, exLedge, if_true, one_ne_zero, if_false, Body.blank]
    rw [e, c1]
    simp
    ring
  have ab : ((exLedge q).arbs, (exLedge q).joints) = ([⟨0, 1, ⟨0, 0, ⟨0, 0⟩, ⟨0, 1⟩, [⟨⟨1, 0⟩, ⟨1, 0⟩, 1/2, 1, 0, 1 - q, 0, 0, 0, 0⟩], .first, false⟩⟩],
    [⟨0, 1, .motor ⟨⟨3, 1, 1⟩, 0, 1, -(1 - q)⟩⟩]) := rfl
  obtain ⟨ab1, ab2⟩ := Prod.mk.inj ab
  simp only [SolverState.iterate, ab1, ab2, linkLoop, Arbiter.applyImpulse, Arbiter.impulseLoop, st, Joint.applyImpulse]
  have p0 : putPair (exLedge q).bodies 0 1 ((exLedge q).bodies 0) { (exLedge q).bodies 1 with v := ⟨0, -(q / 2)⟩, w := q / 2 } 0 = (exLedge q).bodies 0 := rfl
  have p1 : putPair (exLedge q).bodies 0 1 ((exLedge q).bodies 0) { (exLedge q).bodies 1 with v := ⟨0, -(q / 2)⟩, w := q / 2 } 1 =
    { (exLedge q).bodies 1 with v := ⟨0, -(q / 2)⟩, w := q / 2 } := rfl
  simp only [p0, p1, jt]
  rw [putPair_over]
  have pb : putPair (exLedge q).bodies 0 1 ((exLedge q).bodies 0) ((exLedge (q / 2)).bodies 1) = (exLedge (q / 2)).bodies := by
    funext k
    by_cases k0 : k = 0
    · subst k0; rfl
    · by_cases k1 : k = 1
      · subst k1; rfl
      · simp [putPair, exLedge, k0, k1]
  rw [pb]
  rfl

theorem exLedge_all (n : Nat) : (SolverState.iterate realMth 1)^[n] (exLedge 1) = exLedge (1 / 2 ^ n) := by
  induction n with
  | zero => simp
  | succ n ih =>
    rw [Function.iterate_succ_apply', ih, exLedge_step _ (by positivity) (by rw [div_le_one (by positivity)]; exact one_le_pow₀ (by norm_num))]
    congr 1
    rw [pow_succ]; field_simp

example : (∀ k, 0 ≤ ((exLedge 1).bodies k).mInv ∧ 0 ≤ ((exLedge 1).bodies k).iInv) ∧
    (∀ l ∈ (exLedge 1).arbs, Primed .impacts (fun k => ((exLedge 1).bodies k).mInv) (fun k => ((exLedge 1).bodies k).iInv) l ∧ Smooth l) ∧
    (∀ l ∈ (exLedge 1).joints, l.ia ≠ l.ib ∧ Tied l.it ((exLedge 1).bodies l.ia) ((exLedge 1).bodies l.ib)) ∧
    (∀ n, ∀ l ∈ ((SolverState.iterate realMth 1)^[n + 1] (exLedge 1)).joints, Unstrained 1 l.it) ∧ Allows (exLedge 1) (fun _ => 0) ∧
    (∀ c ∈ allTouches .impacts (exLedge 1).arbs, c.load = 0) ∧ ∀ n, (((SolverState.iterate realMth 1)^[n] (exLedge 1)).bodies 1).v.y = -(1 / 2 ^ n) := by
  refine ⟨fun k => ?_, ?_, ?_, fun n => ?_, ⟨⟨fun k => ?_, ?_⟩, ?_⟩, ?_, fun n => ?_⟩
  · simp only [exLedge]; split_ifs <;> simp [Body.blank]
  · intro l hl
    simp only [exLedge, List.mem_cons, List.not_mem_nil, or_false] at hl
    subst hl
    refine ⟨⟨by simp, by norm_num, ?_⟩, by norm_num, by simp [V2.dot], by simp⟩
    intro c hc
    simp only [List.mem_cons, List.not_mem_nil, or_false] at hc
    subst hc
    refine ⟨by simp [Channel.impacts], 2, by norm_num, by norm_num, ?_⟩
    simp [exLedge, V2.cross]
    norm_num
  · simp [exLedge, Tied, Turnable]
  · rw [exLedge_all]
    have p : (0 : ℝ) < 1 / 2 ^ (n + 1) := by positivity
    have p1 : (1 : ℝ) / 2 ^ (n + 1) ≤ 1 := by rw [div_le_one (by positivity)]; exact one_le_pow₀ (by norm_num)
    generalize (1 : ℝ) / 2 ^ (n + 1) = q at *
    intro l hl
    simp only [exLedge, List.mem_cons, List.not_mem_nil, or_false] at hl
    subst hl
    simp only [Unstrained]
    rw [abs_lt]
    constructor <;> linarith
  · simp only [exLedge]; split_ifs <;> simp [Body.blank, V2.zero]
  · simp [exLedge, misses]
  · simp [exLedge, allTouches, touchOf, Channel.impacts, Touch.speed, partSpeed]
  · simp [exLedge, allTouches, touchOf, Channel.impacts]
  · rw [exLedge_all]; simp [exLedge]

end Cm
