import Verif.Props.AllSettle
/-! # C148: contacts and joints that can be met have a solution -/
set_option linter.unusedSectionVars false
set_option linter.unusedSimpArgs false
set_option linter.unusedVariables false

namespace Cm
open Spec Descent
variable {K : Type} [Field K] [LinearOrder K] [IsStrictOrderedRing K]

namespace Mix
variable {V α : Type} [AddCommGroup V] [Module K V] {B : V →ₗ[K] V →ₗ[K] K}

/-- What the pushes `R` in the directions `dir` make up. -/
def shift (dir : α → V) (R : List (α × K)) : V := (R.map fun p => p.2 • dir p.1).sum

theorem shift_le (dir : α → V) {e : V} (R : List (α × K)) (h : ∀ p ∈ R, p.2 * B (dir p.1) e ≤ 0) : B (shift dir R) e ≤ 0 := by
  induction R with
  | nil => simp [shift]
  | cons p R ih =>
    have i := ih fun p hp => h p (by simp [hp])
    have q := h p (by simp)
    simp only [shift, List.map_cons, List.sum_cons, map_add, LinearMap.add_apply, map_smul, LinearMap.smul_apply, smul_eq_mul] at i ⊢
    linarith

theorem shift_ge (dir : α → V) {e : V} (R : List (α × K)) (h : ∀ p ∈ R, 0 ≤ p.2 * B (dir p.1) e) : 0 ≤ B (shift dir R) e := by
  have := shift_le (B := B) dir (e := -e) R fun p hp => by rw [map_neg, mul_neg]; linarith [h p hp]
  rw [map_neg] at this
  linarith

/-- Inequalities and equations that can be met have a solution in which the inequalities only push, and only where they are met exactly. -/
theorem solution (sym : ∀ x y, B x y = B y x) (psd : ∀ x, 0 ≤ B x x) (dir : α → V) (bd : α → K) (D : List α) : ∀ (T : List (V × K)) (y w : V),
    (∀ t ∈ T, B t.1 w = t.2) → (∀ d ∈ D, bd d ≤ B (dir d) w) →
    ∃ (R : List (α × K)) (g : V), R.map Prod.fst = D ∧ g ∈ Tie.Made (K := K) (T.map Prod.fst) ∧ (∀ t ∈ T, B t.1 (y + shift dir R + g) = t.2) ∧
      ∀ p ∈ R, 0 ≤ p.2 ∧ bd p.1 ≤ B (dir p.1) (y + shift dir R + g) ∧ (0 < p.2 → B (dir p.1) (y + shift dir R + g) = bd p.1) := by
  induction D with
  | nil =>
    intro T y w hT _
    obtain ⟨p, p1, p2⟩ := Tie.part sym psd (w - y) (T.map Prod.fst)
    refine ⟨[], p, rfl, p1, fun t ht => ?_, by simp⟩
    have := p2 t.1 (List.mem_map.2 ⟨t, ht, rfl⟩)
    have e : y + shift dir ([] : List (α × K)) + p = w - (w - y - p) := by
      simp only [shift, List.map_nil, List.sum_nil]
      abel
    rw [e, map_sub, this, sub_zero, hT t ht]
  | cons d D ih =>
    intro T y w hT hD
    obtain ⟨R, g, r1, r2, r3, r4⟩ := ih T y w hT fun d hd => hD d (by simp [hd])
    set x := y + shift dir R + g with hx
    by_cases h : bd d ≤ B (dir d) x
    · have e : y + shift dir ((d, (0 : K)) :: R) + g = x := by simp [shift, hx]
      refine ⟨(d, 0) :: R, g, by simp [r1], r2, by rw [e]; exact r3, ?_⟩
      rw [e]
      intro p hp
      rcases List.mem_cons.1 hp with rfl | hp
      · exact ⟨le_refl _, h, fun c => absurd c (lt_irrefl _)⟩
      · exact r4 p hp
    · have h' : B (dir d) x < bd d := not_le.1 h
      have hd := hD d (by simp)
      have gap : 0 < B (dir d) w - B (dir d) x := by linarith
      set θ := (bd d - B (dir d) x) / (B (dir d) w - B (dir d) x) with hθ
      have t0 : 0 ≤ θ := div_nonneg (by linarith) gap.le
      have t1 : θ ≤ 1 := by rw [hθ, div_le_one gap]; linarith
      have tv : θ * (B (dir d) w - B (dir d) x) = bd d - B (dir d) x := div_mul_cancel₀ _ gap.ne'
      have bw : ∀ v, B v (x + θ • (w - x)) = B v x + θ * (B v w - B v x) := fun v => by
        simp only [map_add, map_smul, map_sub, smul_eq_mul]
      have dR : ∀ e ∈ D, ∃ p ∈ R, p.1 = e := fun e he => by
        rw [← r1] at he
        obtain ⟨p, hp, q⟩ := List.mem_map.1 he
        exact ⟨p, hp, q⟩
      obtain ⟨R', g', q1, q2, q3, q4⟩ := ih ((dir d, bd d) :: T) y (x + θ • (w - x)) (by
        intro t ht
        rw [bw]
        rcases List.mem_cons.1 ht with rfl | ht
        · rw [tv]; ring
        · rw [r3 t ht, hT t ht]; ring) (by
        intro e he
        rw [bw]
        obtain ⟨p, hp, rfl⟩ := dR e he
        have a1 := (r4 p hp).2.1
        have a2 := hD p.1 (by simp [he])
        nlinarith)
      obtain ⟨c, g2, hg2, eg⟩ := Tie.made_cons (show g' ∈ Tie.Made (K := K) (dir d :: T.map Prod.fst) from q2)
      set x' := y + shift dir R' + g' with hx'
      have bd' : B (dir d) x' = bd d := q3 (dir d, bd d) (by simp)
      have dR' : ∀ e ∈ D, ∃ p ∈ R', p.1 = e := fun e he => by
        rw [← q1] at he
        obtain ⟨p, hp, q⟩ := List.mem_map.1 he
        exact ⟨p, hp, q⟩
      have c0 : 0 ≤ c := by
        by_contra hc
        have hc : c < 0 := not_le.1 hc
        have ee : x - x' = shift dir R + g - shift dir R' - c • dir d - g2 := by rw [hx, hx', eg]; abel
        have z : ∀ t ∈ T.map Prod.fst, B t (x - x') = 0 := by
          intro v hv
          obtain ⟨t, ht, rfl⟩ := List.mem_map.1 hv
          rw [map_sub, r3 t ht, q3 t (by simp [ht]), sub_self]
        have z1 := Tie.made_zero z r2
        have z2 := Tie.made_zero z hg2
        have s1 : B (shift dir R) (x - x') ≤ 0 := by
          refine shift_le dir R fun p hp => ?_
          obtain ⟨a1, a2, a3⟩ := r4 p hp
          obtain ⟨p', hp', ep⟩ := dR' p.1 (by rw [← r1]; exact List.mem_map.2 ⟨p, hp, rfl⟩)
          have b2 := (q4 p' hp').2.1
          rw [ep] at b2
          rcases a1.eq_or_lt with k | k
          · rw [← k, zero_mul]
          · rw [map_sub, a3 k]
            exact mul_nonpos_of_nonneg_of_nonpos a1 (by linarith)
        have s2 : 0 ≤ B (shift dir R') (x - x') := by
          refine shift_ge dir R' fun p hp => ?_
          obtain ⟨a1, a2, a3⟩ := q4 p hp
          obtain ⟨p', hp', ep⟩ := dR p.1 (by rw [← q1]; exact List.mem_map.2 ⟨p, hp, rfl⟩)
          have b2 := (r4 p' hp').2.1
          rw [ep] at b2
          rcases a1.eq_or_lt with k | k
          · rw [← k, zero_mul]
          · rw [map_sub, a3 k]
            exact mul_nonneg a1 (by linarith)
        have s3 : 0 < c * B (dir d) (x - x') := by
          rw [map_sub, bd']
          exact mul_pos_of_neg_of_neg hc (by linarith)
        have big := psd (x - x')
        have ex : B (x - x') (x - x') = B (shift dir R) (x - x') + B g (x - x') - B (shift dir R') (x - x') - c * B (dir d) (x - x') - B g2 (x - x') := by
          generalize hz : x - x' = f at ee ⊢
          conv_lhs => rw [show B f f = B (shift dir R + g - shift dir R' - c • dir d - g2) f from by rw [← ee]]
          simp only [map_add, map_sub, map_smul, LinearMap.add_apply, LinearMap.sub_apply, LinearMap.smul_apply, smul_eq_mul]
        rw [z1, z2] at ex
        linarith
      have e : y + shift dir ((d, c) :: R') + g2 = x' := by
        rw [hx', eg]
        simp only [shift, List.map_cons, List.sum_cons]
        abel
      refine ⟨(d, c) :: R', g2, by simp [q1], hg2, ?_, ?_⟩
      · rw [e]; exact fun t ht => q3 t (by simp [ht])
      · rw [e]
        intro p hp
        rcases List.mem_cons.1 hp with rfl | hp
        · exact ⟨c0, bd'.ge, fun _ => bd'⟩
        · exact q4 p hp
end Mix

theorem shift_reach {μ ι : Nat → K} (R : List (Touch K × K)) : Reach μ ι (Mix.shift (dvec μ ι) R) := by
  induction R with
  | nil => exact reach_zero _ _
  | cons p R ih =>
    simp only [Mix.shift, List.map_cons, List.sum_cons] at ih ⊢
    rw [add_comm]
    exact ih.add (dvec_reach μ ι p.1) p.2

theorem shift_sums (μ ι : Nat → K) (Q : List (Touch K × K)) (k : Nat) :
    Mix.shift (dvec μ ι) ((Q.map Prod.fst).map fun c => (c, -c.load)) k + Mix.shift (dvec μ ι) Q k = (Q.map fun p => (p.2 - p.1.load) • p.1.push (μ k) (ι k) k).sum := by
  induction Q with
  | nil => simp [Mix.shift]
  | cons p Q ih =>
    simp only [Mix.shift, List.map_cons, List.sum_cons, Pi.add_apply, Pi.smul_apply] at ih ⊢
    rw [← ih]
    simp only [dvec]
    module

/-- **C148**. If there are any velocities that contacts and joints allow, there are impulses that solve them. -/
theorem C148_exists {s : SolverState K} (hm : ∀ k, 0 ≤ (s.bodies k).mInv ∧ 0 ≤ (s.bodies k).iInv) (ha : ∀ l ∈ s.arbs, l.ia ≠ l.ib) (hj : ∀ l ∈ s.joints, l.ia ≠ l.ib)
    (w : Flow K) (hw : Allows s w) : ∃ P g u, SolvesAll s P g u := by
  obtain ⟨N1, hN1⟩ := bound_links s.arbs
  obtain ⟨N2, hN2⟩ := bound_joints s.joints
  obtain ⟨N, hN⟩ : ∃ N, (∀ l ∈ s.arbs, l.ia < N ∧ l.ib < N) ∧ ∀ l ∈ s.joints, l.ia < N ∧ l.ib < N :=
    ⟨max N1 N2, fun l h => by have := hN1 l h; omega, fun l h => by have := hN2 l h; omega⟩
  have rw0 := agrees_reach hw.joints
  have hpe := heldPushes_eq s
  set μ := fun k => (s.bodies k).mInv with hμ
  set ι := fun k => (s.bodies k).iInv with hι
  have sym := form_sym N μ ι
  have psd := form_nonneg (N := N) (μ := μ) (ι := ι) (fun k => (hm k).1) (fun k => (hm k).2)
  set L := ((s.joints.map tie).map (dirs μ ι)).flatten with hL
  set D := allTouches Channel.impacts s.arbs with hD
  have ends : ∀ c ∈ D, c.ia < N ∧ c.ib < N ∧ c.ia ≠ c.ib := by
    intro c hc
    obtain ⟨l, hl, k, -, e⟩ := touch_links hc
    rw [e]
    exact ⟨(hN.1 l hl).1, (hN.1 l hl).2, ha l hl⟩
  set y : Flow K := away .impacts s.bodies w + Mix.shift (dvec μ ι) (D.map fun c => (c, -c.load)) with hy
  have ry : Reach μ ι y := by
    have := rw0.add (shift_reach (μ := μ) (ι := ι) (D.map fun c => (c, -c.load))) 1
    rwa [one_smul] at this
  obtain ⟨R, g, r1, r2, r3, r4⟩ := Mix.solution sym psd (dvec μ ι) (fun c => c.goal - c.speed w) D (L.map fun d => (d, (0 : K))) y 0
    (by intro t ht; obtain ⟨d, -, rfl⟩ := List.mem_map.1 ht; simp)
    (by intro c hc; have := hw.contacts c hc; simp only [map_zero]; linarith)
  have eL : (L.map fun d => (d, (0 : K))).map Prod.fst = L := by rw [List.map_map]; exact List.map_id _
  rw [eL] at r2
  set x := y + Mix.shift (dvec μ ι) R + g with hx
  have rx : Reach μ ι x := by
    have a := ry.add (shift_reach (μ := μ) (ι := ι) R) 1
    have b := a.add (reach_made r2) 1
    simpa only [one_smul] using b
  have sp : ∀ c ∈ D, form N μ ι (dvec μ ι c) x = c.speed (w + x) - c.speed w := by
    intro c hc
    rw [form_dvec (ends c hc).1 (ends c hc).2.1 (ends c hc).2.2 rx]
    simp only [Touch.speed, partSpeed, Pi.add_apply, Prod.fst_add, Prod.snd_add]
    ring
  have inD : ∀ p ∈ R, p.1 ∈ D := fun p hp => by rw [← r1]; exact List.mem_map.2 ⟨p, hp, rfl⟩
  refine ⟨R, g, w + x, r1, fun k => ?_, ?_, fun p hp => (r4 p hp).1, fun p hp => ?_, fun p hp h => ?_, fun l hl => ?_⟩
  · rw [← shift_sums μ ι R k, r1, hx, hy]
    simp only [Pi.add_apply, away]
    abel
  · rw [hpe]; exact r2
  · have := (r4 p hp).2.1
    rw [sp p.1 (inD p hp)] at this
    linarith
  · have := (r4 p hp).2.2 h
    rw [sp p.1 (inD p hp)] at this
    linarith
  · rw [met_iff]
    intro r hr
    have hd : pulls μ ι l.ia l.ib r.1 ∈ L := List.mem_flatten.2 ⟨_, List.mem_map.2 ⟨_, List.mem_map.2 ⟨l, hl, rfl⟩, rfl⟩, List.mem_map.2 ⟨r, hr, rfl⟩⟩
    have z := r3 (pulls μ ι l.ia l.ib r.1, 0) (List.mem_map.2 ⟨_, hd, rfl⟩)
    have z' : form N μ ι (pulls μ ι l.ia l.ib r.1) x = 0 := z
    rw [form_pulls r.1 (hN.2 l hl).1 (hN.2 l hl).2 (hj l hl) rx] at z'
    have m := ((met_iff l w).1 (hw.joints.met l hl)) r hr
    simp only [tie] at m ⊢
    have s := reads_sub r.1 ((w + x) l.ia) ((w + x) l.ib) (w l.ia) (w l.ib)
    simp only [Pi.add_apply, add_sub_cancel_left] at s ⊢
    rw [z', m] at s
    linarith

/-- What contacts and joints that can be met at all come to: the iterations settle on velocities that meet everything and, where the contacts start without impulses,
have to be changed least for it. -/
theorem C148_settle [Archimedean K] {M : Mth K} (hM : M.Lawful) (dt : K) (s : SolverState K) (hm : ∀ k, 0 ≤ (s.bodies k).mInv ∧ 0 ≤ (s.bodies k).iInv)
    (ha : ∀ l ∈ s.arbs, Primed .impacts (fun k => (s.bodies k).mInv) (fun k => (s.bodies k).iInv) l ∧ Smooth l)
    (hj : ∀ l ∈ s.joints, l.ia ≠ l.ib ∧ Tied l.it (s.bodies l.ia) (s.bodies l.ib))
    (hf : ∀ n, ∀ l ∈ ((SolverState.iterate M dt)^[n + 1] s).joints, Unstrained dt l.it) (w : Flow K) (hw : Allows s w) :
    ∃ u, Allows s u ∧ (∀ ε > 0, ∃ n0, ∀ n ≥ n0, ∀ k, FlowNear ε (Channel.impacts.flow (((SolverState.iterate M dt)^[n] s).bodies k)) (u k)) ∧
      ((∀ c ∈ allTouches .impacts s.arbs, c.load = 0) → ∀ N, (∀ l ∈ s.arbs, l.ia < N ∧ l.ib < N) → (∀ l ∈ s.joints, l.ia < N ∧ l.ib < N) →
        ∀ v, Allows s v → effort N s.bodies u ≤ effort N s.bodies v) := by
  obtain ⟨P, g, u, hs⟩ := C148_exists hm (fun l h => (ha l h).1.ne) (fun l h => (hj l h).1) w hw
  exact ⟨u, solves_agrees hs, C147_settle hM dt s hm ha hj hf P g u hs, fun h0 N h1 h2 v hv =>
    C147_least hm (fun l h => (ha l h).1.ne) (fun l h => (hj l h).1) P g u hs h0 N ⟨h1, h2⟩ v hv⟩

/-- Contacts and joints have a solution exactly if any velocities meet all they ask for. -/
theorem C148_iff {s : SolverState K} (hm : ∀ k, 0 ≤ (s.bodies k).mInv ∧ 0 ≤ (s.bodies k).iInv) (ha : ∀ l ∈ s.arbs, l.ia ≠ l.ib) (hj : ∀ l ∈ s.joints, l.ia ≠ l.ib) :
    (∃ P g u, SolvesAll s P g u) ↔ ∃ w, Allows s w :=
  ⟨fun ⟨_, _, u, h⟩ => ⟨u, solves_agrees h⟩, fun ⟨w, h⟩ => C148_exists hm ha hj w h⟩

/-! ## Contacts alone, for velocities and for the correction of overlaps -/

namespace Spec
/-- With the velocities `w` all contacts part at least as fast as they ask for, and immovable bodies move as in `s`. -/
structure Parts (κ : Channel K) (s : SolverState K) (w : Flow K) : Prop where
  still : ∀ k, ((s.bodies k).mInv = 0 → (w k).1 = (κ.flow (s.bodies k)).1 ∧ (w k).2.1 = (κ.flow (s.bodies k)).2.1) ∧ ((s.bodies k).iInv = 0 → (w k).2.2 = (κ.flow (s.bodies k)).2.2)
  contacts : ∀ c ∈ allTouches κ s.arbs, c.goal ≤ c.speed w
end Spec

/-- Contacts, whatever their friction, have a solution exactly if any velocities part them as they ask for. -/
theorem C148_contacts (κ : Channel K) {s : SolverState K} (hm : ∀ k, 0 ≤ (s.bodies k).mInv ∧ 0 ≤ (s.bodies k).iInv) (ha : ∀ l ∈ s.arbs, l.ia ≠ l.ib) :
    (∃ P u, Solves κ s P u) ↔ ∃ w, Parts κ s w := by
  constructor
  · rintro ⟨P, u, h⟩
    have r := place_reach (μ := fun k => (s.bodies k).mInv) (ι := fun k => (s.bodies k).iInv) (u := u) P
    rw [← start_place h] at r
    refine ⟨u, fun k => ?_, fun c hc => ?_⟩
    · obtain ⟨r1, r2⟩ := r k
      simp only [away, Prod.fst_sub, Prod.snd_sub, sub_eq_zero] at r1 r2
      exact ⟨fun e => ⟨((r1 e).1).symm, ((r1 e).2).symm⟩, fun e => (r2 e).symm⟩
    · rw [← h.all] at hc
      obtain ⟨p, hp, rfl⟩ := List.mem_map.1 hc
      exact h.part p hp
  · rintro ⟨w, hw⟩
    obtain ⟨N, hN⟩ := bound_links s.arbs
    have rw0 : Reach (fun k => (s.bodies k).mInv) (fun k => (s.bodies k).iInv) (away κ s.bodies w) := by
      intro k
      obtain ⟨h1, h2⟩ := hw.still k
      simp only [away, Prod.fst_sub, Prod.snd_sub, sub_eq_zero]
      exact ⟨fun e => ⟨((h1 e).1).symm, ((h1 e).2).symm⟩, fun e => (h2 e).symm⟩
    set μ := fun k => (s.bodies k).mInv with hμ
    set ι := fun k => (s.bodies k).iInv with hι
    have sym := form_sym N μ ι
    have psd := form_nonneg (N := N) (μ := μ) (ι := ι) (fun k => (hm k).1) (fun k => (hm k).2)
    set D := allTouches κ s.arbs with hD
    have ends : ∀ c ∈ D, c.ia < N ∧ c.ib < N ∧ c.ia ≠ c.ib := by
      intro c hc
      obtain ⟨l, hl, k, -, e⟩ := touch_links hc
      rw [e]
      exact ⟨(hN l hl).1, (hN l hl).2, ha l hl⟩
    set y : Flow K := away κ s.bodies w + Mix.shift (dvec μ ι) (D.map fun c => (c, -c.load)) with hy
    have ry : Reach μ ι y := by
      have := rw0.add (shift_reach (μ := μ) (ι := ι) (D.map fun c => (c, -c.load))) 1
      rwa [one_smul] at this
    obtain ⟨R, g, r1, r2, -, r4⟩ := Mix.solution sym psd (dvec μ ι) (fun c => c.goal - c.speed w) D [] y 0 (by simp)
      (by intro c hc; have := hw.contacts c hc; simp only [map_zero]; linarith)
    have g0 : g = 0 := by simpa [Tie.Made] using r2
    subst g0
    simp only [add_zero] at r4
    set x := y + Mix.shift (dvec μ ι) R with hx
    have rx : Reach μ ι x := by
      have a := ry.add (shift_reach (μ := μ) (ι := ι) R) 1
      simpa only [one_smul] using a
    have sp : ∀ c ∈ D, form N μ ι (dvec μ ι c) x = c.speed (w + x) - c.speed w := by
      intro c hc
      rw [form_dvec (ends c hc).1 (ends c hc).2.1 (ends c hc).2.2 rx]
      simp only [Touch.speed, partSpeed, Pi.add_apply, Prod.fst_add, Prod.snd_add]
      ring
    have inD : ∀ p ∈ R, p.1 ∈ D := fun p hp => by rw [← r1]; exact List.mem_map.2 ⟨p, hp, rfl⟩
    refine ⟨R, w + x, r1, fun k => ?_, fun p hp => (r4 p hp).1, fun p hp => ?_, fun p hp h => ?_⟩
    · rw [← shift_sums μ ι R k, r1, hx, hy]
      simp only [Pi.add_apply, away]
      abel
    · have := (r4 p hp).2.1
      rw [sp p.1 (inD p hp)] at this
      linarith
    · have := (r4 p hp).2.2 h
      rw [sp p.1 (inD p hp)] at this
      linarith

/-- Where the overlaps can be corrected together at all, the corrections, with friction and any joints, settle, as nearly as one likes, on corrections that do all that was asked for. -/
theorem C148_corrections [Archimedean K] (M : Mth K) (dt : K) (s : SolverState K) (hm : ∀ k, 0 ≤ (s.bodies k).mInv ∧ 0 ≤ (s.bodies k).iInv)
    (ha : ∀ l ∈ s.arbs, Primed .corrections (fun k => (s.bodies k).mInv) (fun k => (s.bodies k).iInv) l) (w : Flow K) (hw : Parts .corrections s w) :
    ∃ u, Parts .corrections s u ∧ ∀ ε > 0, ∃ n0, ∀ n ≥ n0, ∀ k, FlowNear ε (Channel.corrections.flow (((SolverState.iterate M dt)^[n] s).bodies k)) (u k) := by
  obtain ⟨P, u, h⟩ := (C148_contacts .corrections hm fun l m => (ha l m).ne).2 ⟨w, hw⟩
  refine ⟨u, ?_, C128_corrections M dt s hm ha P u h⟩
  have r := place_reach (μ := fun k => (s.bodies k).mInv) (ι := fun k => (s.bodies k).iInv) (u := u) P
  rw [← start_place h] at r
  refine ⟨fun k => ?_, fun c hc => ?_⟩
  · obtain ⟨r1, r2⟩ := r k
    simp only [away, Prod.fst_sub, Prod.snd_sub, sub_eq_zero] at r1 r2
    exact ⟨fun e => ⟨((r1 e).1).symm, ((r1 e).2).symm⟩, fun e => (r2 e).symm⟩
  · rw [← h.all] at hc
    obtain ⟨p, hp, rfl⟩ := List.mem_map.1 hc
    exact h.part p hp

/-! ## Examples -/

/-- The disc on the ledge meets what is asked for. -/
example : (∀ k, 0 ≤ ((exLedge 1).bodies k).mInv ∧ 0 ≤ ((exLedge 1).bodies k).iInv) ∧ (∀ l ∈ (exLedge 1).arbs, l.ia ≠ l.ib) ∧ (∀ l ∈ (exLedge 1).joints, l.ia ≠ l.ib) ∧
    Allows (exLedge 1) fun _ => 0 := by
  refine ⟨fun k => ?_, by simp [exLedge], by simp [exLedge], ⟨fun k => ?_, ?_⟩, ?_⟩
  · simp only [exLedge]; split_ifs <;> simp [Body.blank]
  · simp only [exLedge]; split_ifs <;> simp [Body.blank, V2.zero]
  · simp [exLedge, misses]
  · simp [exLedge, allTouches, touchOf, Channel.impacts, Touch.speed, partSpeed]

/-- The pile of balls meets what is asked for: lift the lower ball by its overlap and the upper one by both. -/
example : (∀ k, 0 ≤ ((exReady 1).bodies k).mInv ∧ 0 ≤ ((exReady 1).bodies k).iInv) ∧
    Parts .corrections (exReady 1) fun k => if k = 1 then (0, 9/20, 0) else if k = 2 then (0, 9/10, 0) else 0 := by
  rw [exReady_eq]
  refine ⟨fun k => ?_, fun k => ?_, ?_⟩
  · simp only [exPile]; split_ifs <;> simp [Body.blank]
  · by_cases k1 : k = 1
    · subst k1; simp [exPile]
    · by_cases k2 : k = 2
      · subst k2; simp [exPile]
      · simp only [exPile, k1, k2, if_false, Channel.corrections]; split_ifs <;> simp [Body.blank, V2.zero]
  · simp [allTouches, touchOf, Channel.corrections, Touch.speed, partSpeed]
    norm_num

/-- A disc in a gap too narrow for it: floor and ceiling are one immovable body. -/
def exJam : SolverState ℚ :=
  ⟨fun k => if k = 1 then { Body.blank with m := 1, mInv := 1, i := 1, iInv := 1 } else { Body.blank with mInv := 0, iInv := 0 },
    [⟨0, 1, ⟨0, 0, ⟨0, 0⟩, ⟨0, 1⟩, [⟨⟨0, 0⟩, ⟨0, -1⟩, 1, 1, 0, 0, 0, 0, 1, 0⟩], .first, false⟩⟩,
     ⟨0, 1, ⟨0, 0, ⟨0, 0⟩, ⟨0, -1⟩, [⟨⟨0, 0⟩, ⟨0, 1⟩, 1, 1, 0, 0, 0, 0, 1, 0⟩], .first, false⟩⟩], []⟩

/-- Nothing gets it out, and so the solver has no solution to find. -/
example : ¬∃ P u, Solves .corrections exJam P u := by
  rw [C148_contacts .corrections (fun k => by simp only [exJam]; split_ifs <;> simp) (by simp [exJam])]
  rintro ⟨w, -, h⟩
  simp [exJam, allTouches, touchOf, Channel.corrections, Touch.speed, partSpeed] at h
  linarith [h.1, h.2]

end Cm
