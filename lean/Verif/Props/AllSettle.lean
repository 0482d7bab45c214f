import Verif.Props.MixedDescent
/-! # C147: with enough iterations the solver finds the solution for contacts and joints -/
set_option linter.unusedSectionVars false
set_option linter.unusedSimpArgs false
set_option linter.unusedVariables false

namespace Cm
open Spec Descent
variable {K : Type} [Field K] [LinearOrder K] [IsStrictOrderedRing K]

namespace Spec
/-- All that impulses in the joints of `s` can do to the velocities. -/
def heldPushes (s : SolverState K) : Submodule K (Flow K) :=
  Submodule.span K {x | ∃ l ∈ s.joints, ∃ r ∈ asked l.it, x = pulls (fun k => (s.bodies k).mInv) (fun k => (s.bodies k).iInv) l.ia l.ib r.1}

/-- `u` are velocities that solve the contacts and joints of `s`, with the impulse `p.2` in the contact `p.1` and the changes `g` by impulses in the joints: they come from those of `s` by the impulses;
the contacts only push; all bodies part at least at the speed asked for, and at exactly that speed where there is a push; the joints have what they ask for. -/
structure SolvesAll (s : SolverState K) (P : List (Touch K × K)) (g u : Flow K) : Prop where
  all : P.map Prod.fst = allTouches .impacts s.arbs
  moved : ∀ k, u k = Channel.impacts.flow (s.bodies k) + (P.map fun p => (p.2 - p.1.load) • p.1.push (s.bodies k).mInv (s.bodies k).iInv k).sum + g k
  held : g ∈ heldPushes s
  push : ∀ p ∈ P, 0 ≤ p.2
  part : ∀ p ∈ P, p.1.goal ≤ p.1.speed u
  exact : ∀ p ∈ P, 0 < p.2 → p.1.speed u = p.1.goal
  met : ∀ l ∈ s.joints, ∀ m ∈ misses l.it (u l.ia) (u l.ib), m = 0
end Spec

theorem heldPushes_eq (s : SolverState K) :
    heldPushes s = Tie.Made (K := K) ((s.joints.map tie).map (dirs (fun k => (s.bodies k).mInv) (fun k => (s.bodies k).iInv))).flatten := by
  unfold heldPushes Tie.Made
  congr 1
  ext x
  simp only [Set.mem_ofPred_eq, List.mem_flatten, List.mem_map, dirs, tie]
  constructor
  · rintro ⟨l, hl, r, hr, rfl⟩
    exact ⟨_, ⟨_, ⟨l, hl, rfl⟩, rfl⟩, List.mem_map.2 ⟨r, hr, rfl⟩⟩
  · rintro ⟨ds, ⟨t, ⟨l, hl, rfl⟩, rfl⟩, h⟩
    obtain ⟨r, hr, rfl⟩ := List.mem_map.1 h
    exact ⟨l, hl, r, hr, rfl⟩

/-- A constraint without the impulse of the solution. -/
def unload (p : Row K (Flow K) × K) : Row K (Flow K) × K := (⟨p.1.d, p.1.ws, 0⟩, p.2)

theorem sweep_unload (B : Flow K →ₗ[K] Flow K →ₗ[K] K) (ps : List (Row K (Flow K) × K)) : ∀ x, sweep B (ps.map unload) x = ((sweep B ps x).1, (sweep B ps x).2.map unload) := by
  induction ps with
  | nil => intro x; rfl
  | cons p ps ih =>
    intro x
    have e : hit B (unload p).1 x (unload p).2 = hit B p.1 x p.2 := rfl
    simp only [List.map_cons, sweep, e]
    have i := ih (x + (hit B p.1 x p.2 - p.2) • p.1.d)
    have e2 : x + (hit B p.1 x p.2 - (unload p).2) • (unload p).1.d = x + (hit B p.1 x p.2 - p.2) • p.1.d := rfl
    rw [e2, i]
    rfl

theorem place_far {Q : List (Row K (Flow K) × K)} {k : Nat} (h : ∀ q ∈ Q, q.1.d k = 0) : place Q k = 0 := by
  induction Q with
  | nil => rfl
  | cons q Q ih =>
    have i := ih fun q hq => h q (by simp [hq])
    simp only [place, List.map_cons, List.sum_cons, Pi.add_apply, Pi.smul_apply] at i ⊢
    rw [i, h q (by simp), smul_zero, add_zero]

theorem start_mixed {s : SolverState K} {P : List (Touch K × K)} {g u : Flow K} (h : SolvesAll s P g u) :
    away .impacts s.bodies u = place (P.map (rowOf (fun k => (s.bodies k).mInv) (fun k => (s.bodies k).iInv) u)) - g := by
  funext k
  rw [Pi.sub_apply]
  simp only [away, h.moved k]
  simp only [place, List.map_map]
  have : ∀ Q : List (Touch K × K), (List.map ((fun p : Row K (Flow K) × K => (p.2 - p.1.ls) • p.1.d) ∘ rowOf (fun k => (s.bodies k).mInv) (fun k => (s.bodies k).iInv) u) Q).sum k =
      -(Q.map fun p => (p.2 - p.1.load) • p.1.push (s.bodies k).mInv (s.bodies k).iInv k).sum := by
    intro Q
    induction Q with
    | nil => simp
    | cons p Q ih =>
      simp only [List.map_cons, List.sum_cons, Pi.add_apply, ih, Function.comp, rowOf, Pi.smul_apply, dvec]
      module
  rw [this]
  module

theorem held_reach {s : SolverState K} {P : List (Touch K × K)} {g u : Flow K} (h : SolvesAll s P g u) : Reach (fun k => (s.bodies k).mInv) (fun k => (s.bodies k).iInv) g := by
  have := h.held
  rw [heldPushes_eq] at this
  exact reach_made this

theorem solves_agrees {s : SolverState K} {P : List (Touch K × K)} {g u : Flow K} (h : SolvesAll s P g u) : Allows s u := by
  have r : Reach (fun k => (s.bodies k).mInv) (fun k => (s.bodies k).iInv) (away .impacts s.bodies u) := by
    rw [start_mixed h]
    have := (place_reach (μ := fun k => (s.bodies k).mInv) (ι := fun k => (s.bodies k).iInv) (u := u) P).add (held_reach h) (-1)
    rwa [neg_one_smul, ← sub_eq_add_neg] at this
  refine ⟨⟨fun k => ?_, h.met⟩, fun c hc => ?_⟩
  · obtain ⟨r1, r2⟩ := r k
    simp only [away, Channel.impacts, Prod.fst_sub, Prod.snd_sub, sub_eq_zero] at r1 r2
    exact ⟨fun e => ⟨((r1 e).1).symm, ((r1 e).2).symm⟩, fun e => (r2 e).symm⟩
  · rw [← h.all] at hc
    obtain ⟨p, hp, rfl⟩ := List.mem_map.1 hc
    exact h.part p hp

/-- **C147**. Contacts without friction, and pins, pivots, gears and motors, in any number and arrangement, no joint at its greatest force: if they have a solution, the iterations come as near to it as one likes. -/
theorem C147_settle [Archimedean K] {M : Mth K} (hM : M.Lawful) (dt : K) (s : SolverState K) (hm : ∀ k, 0 ≤ (s.bodies k).mInv ∧ 0 ≤ (s.bodies k).iInv)
    (ha : ∀ l ∈ s.arbs, Primed .impacts (fun k => (s.bodies k).mInv) (fun k => (s.bodies k).iInv) l ∧ Smooth l)
    (hj : ∀ l ∈ s.joints, l.ia ≠ l.ib ∧ Tied l.it (s.bodies l.ia) (s.bodies l.ib))
    (hf : ∀ n, ∀ l ∈ ((SolverState.iterate M dt)^[n + 1] s).joints, Unstrained dt l.it) (P : List (Touch K × K)) (g u : Flow K) (hs : SolvesAll s P g u) :
    ∀ ε > 0, ∃ n0, ∀ n ≥ n0, ∀ k, FlowNear ε (Channel.impacts.flow (((SolverState.iterate M dt)^[n] s).bodies k)) (u k) := by
  have hw := solves_agrees hs
  obtain ⟨N1, hN1⟩ := bound_links s.arbs
  obtain ⟨N2, hN2⟩ := bound_joints s.joints
  obtain ⟨N, hN⟩ : ∃ N, (∀ l ∈ s.arbs, l.ia < N ∧ l.ib < N) ∧ ∀ l ∈ s.joints, l.ia < N ∧ l.ib < N :=
    ⟨max N1 N2, fun l h => by have := hN1 l h; omega, fun l h => by have := hN2 l h; omega⟩
  have mx := mix_all hM dt (mix_start ha hj hw.joints hN) hf
  have h0 := start_mixed hs
  set μ := fun k => (s.bodies k).mInv with hμ
  set ι := fun k => (s.bodies k).iInv with hι
  set L := (s.joints.map tie).map (dirs μ ι) with hL
  have sym := form_sym N μ ι
  have psd := form_nonneg (N := N) (μ := μ) (ι := ι) (fun k => (hm k).1) (fun k => (hm k).2)
  have gm : g ∈ Tie.Made (K := K) L.flatten := by rw [hL, ← heldPushes_eq]; exact hs.held
  have rg := rows_good hs.all (mx 0).links
  have good : ∀ p ∈ P.map (rowOf μ ι u), Good (form N μ ι) p.1 ∧ 0 ≤ p.2 := by
    intro q hq
    obtain ⟨p, hp, rfl⟩ := List.mem_map.1 hq
    obtain ⟨g1, g2, -⟩ := rg p hp
    refine ⟨⟨g1, sub_nonneg.2 (hs.part p hp), hs.push p hp, ?_⟩, g2⟩
    show p.2 * (p.1.speed u - p.1.goal) = 0
    rcases (hs.push p hp).eq_or_lt with h | h
    · rw [← h, zero_mul]
    · rw [hs.exact p hp h, sub_self, mul_zero]
  set X : Nat → Flow K := fun n => away .impacts ((SolverState.iterate M dt)^[n] s).bodies u with hX
  set Q : Nat → List (Row K (Flow K) × K) := fun n => Nat.rec (P.map (rowOf μ ι u)) (fun n q => (sweep (form N μ ι) q (X n)).2) n with hQ
  have Qs : ∀ n, Q (n + 1) = (sweep (form N μ ι) (Q n) (X n)).2 := fun n => rfl
  have bare : ∀ n, (Q n).map unload = bareRows μ ι u ((SolverState.iterate M dt)^[n] s) := by
    intro n
    induction n with
    | zero =>
      show (P.map (rowOf μ ι u)).map unload = (allTouches .impacts s.arbs).map _
      rw [← hs.all, List.map_map, List.map_map]
      rfl
    | succ n ih =>
      have un := hf n
      rw [Function.iterate_succ_apply'] at un ⊢
      rw [(mix_once hM dt (mx n) un).2.1, ← ih, sweep_unload, Qs]
  have pass : ∀ n, Tie.Pass (form N μ ι) L (sweep (form N μ ι) (Q n) (X n)).1 (X (n + 1)) := by
    intro n
    have un := hf n
    rw [Function.iterate_succ_apply'] at un
    have := (mix_once hM dt (mx n) un).2.2
    rw [← bare n, sweep_unload] at this
    simp only [hX]
    rw [Function.iterate_succ_apply']
    exact this
  have conv := Mix.rounds_converge sym psd L X Q Qs pass (by
    show away .impacts s.bodies u - place (P.map (rowOf μ ι u)) ∈ _
    rw [h0, sub_sub_cancel_left]
    exact Submodule.neg_mem _ gm) good
  have rows : ∀ n, (Q n).map Prod.fst = (Q 0).map Prod.fst := by
    intro n
    induction n with
    | zero => rfl
    | succ n ih => rw [Qs, sweep_rows, ih]
  have dfar : ∀ k, N ≤ k → ∀ n, ∀ q ∈ Q n, q.1.d k = 0 := by
    intro k hk n q hq
    have : q.1 ∈ (Q 0).map Prod.fst := by rw [← rows n]; exact List.mem_map.2 ⟨q, hq, rfl⟩
    obtain ⟨q', hq', e⟩ := List.mem_map.1 this
    obtain ⟨p, hp, rfl⟩ := List.mem_map.1 (show q' ∈ P.map (rowOf μ ι u) from hq')
    rw [← e]
    obtain ⟨-, -, g3, g4, -⟩ := rg p hp
    simp only [rowOf, dvec, Touch.push]
    rw [if_neg (by omega), if_neg (by omega)]
  have tf : ∀ t ∈ s.joints.map tie, t.1 < N ∧ t.2.1 < N := fun t ht => by
    obtain ⟨l, h1, rfl⟩ := List.mem_map.1 ht; exact hN.2 l h1
  have far : ∀ k, N ≤ k → ∀ n, X n k = 0 := by
    intro k hk n
    induction n with
    | zero =>
      show away .impacts s.bodies u k = 0
      have pf : place (P.map (rowOf μ ι u)) k = 0 := place_far (dfar k hk 0)
      rw [h0, Pi.sub_apply, pf, made_far tf gm hk, sub_zero]
    | succ n ih =>
      have a := congrFun (sweep_place (B := form N μ ι) (Q n) (X n)) k
      have b := made_far tf (Tie.pass_made _ _ _ (pass n)) hk
      simp only [Pi.sub_apply] at a b
      rw [← Qs n, place_far (dfar k hk n), place_far (dfar k hk (n + 1)), ih, sub_zero, sub_zero] at a
      rw [a, sub_zero] at b
      exact b
  intro ε hε
  set S : K := ∑ k ∈ Finset.range N, (μ k + ι k) + 1 with hS
  have S1 : 0 < S := by
    have : 0 ≤ ∑ k ∈ Finset.range N, (μ k + ι k) := Finset.sum_nonneg fun k _ => add_nonneg (hm k).1 (hm k).2
    linarith
  obtain ⟨n0, hn0⟩ := conv (ε ^ 2 / S) (by positivity)
  refine ⟨n0, fun n hn k => ?_⟩
  by_cases hk : k < N
  · exact flow_small hm (mx n).reach hε (hn0 n hn) hk
  · have z : Channel.impacts.flow (((SolverState.iterate M dt)^[n] s).bodies k) - u k = 0 := far k (not_lt.1 hk) n
    rw [sub_eq_zero.1 z]
    simp [FlowNear, hε.le]

/-- If the contacts start without impulses, the solution has, of all velocities that contacts and joints allow, those to which the present velocities have to be changed least. -/
theorem C147_least {s : SolverState K} (hm : ∀ k, 0 ≤ (s.bodies k).mInv ∧ 0 ≤ (s.bodies k).iInv)
    (ha : ∀ l ∈ s.arbs, l.ia ≠ l.ib) (hj : ∀ l ∈ s.joints, l.ia ≠ l.ib) (P : List (Touch K × K)) (g u : Flow K) (hs : SolvesAll s P g u)
    (h0 : ∀ c ∈ allTouches .impacts s.arbs, c.load = 0) (N : Nat) (hN : (∀ l ∈ s.arbs, l.ia < N ∧ l.ib < N) ∧ ∀ l ∈ s.joints, l.ia < N ∧ l.ib < N) (w : Flow K) (hw : Allows s w) :
    effort N s.bodies u ≤ effort N s.bodies w := by
  have au := solves_agrees hs
  have st := start_mixed hs
  have ru := agrees_reach au.joints
  have rw' := agrees_reach hw.joints
  have gm := hs.held
  rw [heldPushes_eq] at gm
  rw [effort_eq (fun k => ⟨rfl, rfl⟩), effort_eq (fun k => ⟨rfl, rfl⟩)]
  set μ := fun k => (s.bodies k).mInv with hμ
  set ι := fun k => (s.bodies k).iInv with hι
  have psd := form_nonneg (N := N) (μ := μ) (ι := ι) (fun k => (hm k).1) (fun k => (hm k).2)
  have e1 : away .impacts s.bodies w = away .impacts s.bodies u + (u - w) := by funext k; simp only [away, Pi.add_apply, Pi.sub_apply]; abel
  have rr : Reach μ ι (u - w) := by
    have := rw'.add ru (-1)
    rw [neg_one_smul, ← sub_eq_add_neg, e1, add_sub_cancel_left] at this
    exact this
  have hg : form N μ ι g (u - w) = 0 := by
    refine Tie.made_zero (fun d hd => ?_) gm
    obtain ⟨ds, h1, h2⟩ := List.mem_flatten.1 hd
    obtain ⟨t, ht, rfl⟩ := List.mem_map.1 h1
    obtain ⟨l, hl1, rfl⟩ := List.mem_map.1 ht
    obtain ⟨r, hr, rfl⟩ := List.mem_map.1 h2
    show form N μ ι (pulls μ ι l.ia l.ib r.1) (u - w) = 0
    rw [form_pulls r.1 (hN.2 l hl1).1 (hN.2 l hl1).2 (hj l hl1) rr]
    have a1 := ((met_iff l u).1 (au.joints.met l hl1)) r hr
    have a2 := ((met_iff l w).1 (hw.joints.met l hl1)) r hr
    simp only [Pi.sub_apply, reads_sub]
    simp only [tie] at a1 a2
    rw [a1, a2, sub_self]
  have hp : 0 ≤ form N μ ι (place (P.map (rowOf μ ι u))) (u - w) := by
    have one : ∀ p ∈ P, 0 ≤ (p.1.load - p.2) * form N μ ι (dvec μ ι p.1) (u - w) := by
      intro p hp
      have hc : p.1 ∈ allTouches .impacts s.arbs := by rw [← hs.all]; exact List.mem_map.2 ⟨p, hp, rfl⟩
      have hl0 := h0 _ hc
      have hwc := hw.contacts _ hc
      obtain ⟨l, hl, c, -, e⟩ := touch_links hc
      have b : p.1.ia < N ∧ p.1.ib < N ∧ p.1.ia ≠ p.1.ib := by rw [e]; exact ⟨(hN.1 l hl).1, (hN.1 l hl).2, ha l hl⟩
      rw [form_dvec b.1 b.2.1 b.2.2 rr, hl0, zero_sub]
      have sp : p.1.speed (u - w) = p.1.speed u - p.1.speed w := by
        simp only [Touch.speed, partSpeed, Pi.sub_apply, Prod.fst_sub, Prod.snd_sub]; ring
      rw [sp]
      rcases (hs.push p hp).eq_or_lt with h | h
      · rw [← h]; simp
      · rw [hs.exact p hp h]
        nlinarith
    have : ∀ R : List (Touch K × K), (∀ p ∈ R, 0 ≤ (p.1.load - p.2) * form N μ ι (dvec μ ι p.1) (u - w)) → 0 ≤ form N μ ι (place (R.map (rowOf μ ι u))) (u - w) := by
      intro R
      induction R with
      | nil => intro _; simp [place]
      | cons p R ih =>
        intro h
        have i := ih fun p hp => h p (by simp [hp])
        have q := h p (by simp)
        simp only [place, List.map_cons, List.sum_cons, map_add, LinearMap.add_apply, map_smul, LinearMap.smul_apply, smul_eq_mul, rowOf] at i q ⊢
        linarith
    exact this P one
  rw [e1]
  have := psd (u - w)
  have cr : 0 ≤ form N μ ι (away .impacts s.bodies u) (u - w) := by
    have e : form N μ ι (place (P.map (rowOf μ ι u)) - g) (u - w) = form N μ ι (place (P.map (rowOf μ ι u))) (u - w) - form N μ ι g (u - w) := by
      rw [LinearMap.map_sub (form N μ ι) _ g, LinearMap.sub_apply]
    rw [st, e, hg, sub_zero]
    exact hp
  simp only [map_add, LinearMap.add_apply]
  rw [form_sym N μ ι (u - w) (away .impacts s.bodies u)]
  linarith

/-- There is at most one solution. -/
theorem C147_unique [Archimedean K] {M : Mth K} (hM : M.Lawful) (dt : K) (s : SolverState K) (hm : ∀ k, 0 ≤ (s.bodies k).mInv ∧ 0 ≤ (s.bodies k).iInv)
    (ha : ∀ l ∈ s.arbs, Primed .impacts (fun k => (s.bodies k).mInv) (fun k => (s.bodies k).iInv) l ∧ Smooth l)
    (hj : ∀ l ∈ s.joints, l.ia ≠ l.ib ∧ Tied l.it (s.bodies l.ia) (s.bodies l.ib))
    (hf : ∀ n, ∀ l ∈ ((SolverState.iterate M dt)^[n + 1] s).joints, Unstrained dt l.it) (P P' : List (Touch K × K)) (g g' u u' : Flow K)
    (hs : SolvesAll s P g u) (hs' : SolvesAll s P' g' u') : u = u' := by
  have h1 := C147_settle hM dt s hm ha hj hf P g u hs
  have h2 := C147_settle hM dt s hm ha hj hf P' g' u' hs'
  have same : ∀ a b : K, (∀ ε > 0, ∃ c, |c - a| ≤ ε ∧ |c - b| ≤ ε) → a = b := by
    intro a b h
    by_contra hne
    have : 0 < |a - b| := abs_pos.2 (sub_ne_zero.2 hne)
    obtain ⟨c, c1, c2⟩ := h (|a - b| / 3) (by positivity)
    have t : |a - b| ≤ |c - a| + |c - b| := by
      have := abs_sub_le a c b
      rwa [abs_sub_comm a c] at this
    linarith
  have both : ∀ ε > 0, ∀ k, ∃ c, FlowNear ε c (u k) ∧ FlowNear ε c (u' k) := by
    intro ε hε k
    obtain ⟨n1, q1⟩ := h1 ε hε
    obtain ⟨n2, q2⟩ := h2 ε hε
    exact ⟨_, q1 (max n1 n2) (le_max_left _ _) k, q2 (max n1 n2) (le_max_right _ _) k⟩
  funext k
  refine Prod.ext ?_ (Prod.ext ?_ ?_)
  · exact same _ _ fun ε hε => by obtain ⟨c, c1, c2⟩ := both ε hε k; exact ⟨c.1, c1.1, c2.1⟩
  · exact same _ _ fun ε hε => by obtain ⟨c, c1, c2⟩ := both ε hε k; exact ⟨c.2.1, c1.2.1, c2.2.1⟩
  · exact same _ _ fun ε hε => by obtain ⟨c, c1, c2⟩ := both ε hε k; exact ⟨c.2.2, c1.2.2, c2.2.2⟩

/-- The disc on the ledge, that meets all else asked for (the example of `C146_all_meet`): contact and motor share the impulse evenly and the disc stops. -/
example : SolvesAll (exLedge 1) [(⟨0, 1, ⟨0, 1⟩, ⟨1, 0⟩, ⟨1, 0⟩, 0, 0⟩, 1)] (fun k => if k = 1 then (0, 0, -1) else 0) (fun _ => 0) := by
  refine ⟨?_, fun k => ?_, ?_, ?_, ?_, ?_, ?_⟩
  · simp [exLedge, allTouches, touchOf, Channel.impacts]
  · by_cases k0 : k = 0
    · subst k0; simp [exLedge, Touch.push, pushed, Channel.impacts, Body.blank, V2.zero]; rfl
    · by_cases k1 : k = 1
      · subst k1; simp [exLedge, Touch.push, pushed, Channel.impacts, Body.blank, V2.zero]; rfl
      · simp [exLedge, Touch.push, pushed, Channel.impacts, Body.blank, V2.zero, k0, k1]; rfl
  · have e : (fun k => if k = 1 then (0, 0, -1) else 0 : Flow ℝ) =
        (-1 : ℝ) • pulls (fun k => ((exLedge 1).bodies k).mInv) (fun k => ((exLedge 1).bodies k).iInv) 0 1 ((0, 0, -1), (0, 0, 1)) := by
      funext k
      by_cases k1 : k = 1
      · subst k1; simp [pulls, weighed, exLedge]
      · by_cases k0 : k = 0
        · subst k0; simp [pulls, weighed, exLedge]; rfl
        · simp [pulls, k0, k1]
    rw [e]
    refine Submodule.smul_mem _ _ (Submodule.subset_span ⟨⟨0, 1, .motor ⟨⟨3, 1, 1⟩, 0, 1, -(1 - 1)⟩⟩, by simp [exLedge], (((0, 0, -1), (0, 0, 1)), -0), by simp [asked], rfl⟩)
  · simp
  · simp [Touch.speed, partSpeed]
  · simp [Touch.speed, partSpeed]
  · simp [exLedge, misses]

/-! ## The whole solver -/

theorem prepared_joints (M : Mth K) (inf slop cbias damping : K) (g : V2 K) (dyn : List Nat) (prevDT dt : K) (s : SolverState K) (hj : ∀ l ∈ s.joints, Preparable l.it (s.bodies l.ia) (s.bodies l.ib)) :
    (prepared M inf slop cbias damping g dyn prevDT dt s).joints = s.joints.map fun l => { l with it := (l.it.preStep M inf (s.bodies l.ia) (s.bodies l.ib) dt).2.2 } := by
  have keep : ∀ (f : Joint K → Body K → Body K → Body K × Body K) (ls : List (Link (Joint K))) (bs : Nat → Body K),
      (linkLoop (fun jt a b => ((f jt a b).1, (f jt a b).2, jt)) ls bs).2 = ls := by
    intro f ls
    induction ls with
    | nil => intro bs; rfl
    | cons l ls ih => intro bs; simp only [linkLoop]; rw [ih]
  have e : (s.preStep M inf slop cbias dt).joints = s.joints.map fun l => { l with it := (l.it.preStep M inf (s.bodies l.ia) (s.bodies l.ib) dt).2.2 } := by
    simp only [SolverState.preStep]
    rw [linkLoop_fixed (fun (arb : Arbiter K) (a b : Body K) => (a, b, arb.preStep a b dt slop (1 - M.pow cbias dt)))
      (fun arb a b => arb.preStep a b dt slop (1 - M.pow cbias dt)) s.arbs s.bodies (fun l m => rfl)]
    rw [linkLoop_fixed (fun (jt : Joint K) (a b : Body K) => jt.preStep M inf a b dt) (fun jt a b => (jt.preStep M inf a b dt).2.2) s.joints s.bodies (fun l m => ?_)]
    have := hj l m
    generalize l.it = jt at this ⊢
    cases jt <;> first | rfl | exact this.elim
  rw [← e]
  simp only [prepared, SolverState.cached, SolverState.velocities]
  exact keep _ _ _

theorem tied_masses {jt : Joint K} {a b a' b' : Body K} (ha : a'.mInv = a.mInv ∧ a'.iInv = a.iInv) (hb : b'.mInv = b.mInv ∧ b'.iInv = b.iInv) (h : Tied jt a b) : Tied jt a' b' := by
  cases jt <;> simp only [Tied, Movable, Turnable, kScalar, kScalarBody, kTensor, ha.1, ha.2, hb.1, hb.2] at h ⊢ <;> exact h

/-- The same for the whole solver, from the preparations of contacts and joints on: with enough iterations it gives the velocities of the solution up to any error. -/
theorem C147_solver [Archimedean K] {M : Mth K} (hM : M.Lawful) (inf slop cbias damping : K) (gr : V2 K) (dyn : List Nat) (prevDT dt : K) (s : SolverState K)
    (hm : ∀ k, 0 ≤ (s.bodies k).mInv ∧ 0 ≤ (s.bodies k).iInv) (ha : ∀ l ∈ s.arbs, Pushable s.bodies l ∧ Smooth l ∧ ∀ c ∈ l.it.contacts, 0 ≤ c.jnAcc)
    (hj : ∀ l ∈ s.joints, l.ia ≠ l.ib ∧ Movable (s.bodies l.ia) (s.bodies l.ib) ∧ Turnable (s.bodies l.ia) (s.bodies l.ib) ∧ Preparable l.it (s.bodies l.ia) (s.bodies l.ib))
    (hf : ∀ n, ∀ l ∈ (s.solve M inf slop cbias damping gr dyn prevDT dt (n + 1)).joints, Unstrained dt l.it)
    (P : List (Touch K × K)) (g u : Flow K) (hs : SolvesAll (prepared M inf slop cbias damping gr dyn prevDT dt s) P g u) :
    ∀ ε > 0, ∃ n0, ∀ n ≥ n0, ∀ k, FlowNear ε (Channel.impacts.flow ((s.solve M inf slop cbias damping gr dyn prevDT dt n).bodies k)) (u k) := by
  have ms := prepared_masses M inf slop cbias damping gr dyn prevDT dt s
  refine C147_settle hM dt (prepared M inf slop cbias damping gr dyn prevDT dt s) (fun k => ?_) ?_ ?_ hf P g u hs
  · rw [(ms k).1, (ms k).2]
    exact hm k
  · intro l hl
    rw [prepared_arbs] at hl
    obtain ⟨l0, m, rfl⟩ := List.mem_map.1 hl
    obtain ⟨f1, f2, f3⟩ := ha l0 m
    refine ⟨prepared_primed hm f1 fun c hc => f3 c hc, f2.1, f2.2.1, fun c hc => ?_⟩
    obtain ⟨c0, m0, rfl⟩ := List.mem_map.1 hc
    exact f2.2.2 c0 m0
  · intro l hl
    rw [prepared_joints M inf slop cbias damping gr dyn prevDT dt s fun l h => (hj l h).2.2.2] at hl
    obtain ⟨l0, m, rfl⟩ := List.mem_map.1 hl
    obtain ⟨f1, f2, f3, f4⟩ := hj l0 m
    exact ⟨f1, tied_masses (ms _) (ms _) (C144_prepared hM inf dt l0.it _ _ f2 f3 f4)⟩

/-- The preparations find the disc on the ledge as it is. -/
theorem exLedge_ready : prepared realMth 1000 (1/10) (1/2) 1 ⟨0, 0⟩ [] 1 1 (exLedge 1) = exLedge 1 := by
  have a : (prepared realMth 1000 (1/10) (1/2) 1 ⟨0, 0⟩ [] 1 1 (exLedge 1)).arbs = (exLedge 1).arbs := by
    rw [prepared_arbs]
    simp [exLedge, Arbiter.preStep, Arbiter.preStepContact, kScalar, kScalarBody, V2.cross, V2.perp, V2.dot, V2.sub, V2.add, V2.zero, Body.blank, normalRelativeVelocity, relativeVelocity, V2.scale]
    norm_num
  have j : (prepared realMth 1000 (1/10) (1/2) 1 ⟨0, 0⟩ [] 1 1 (exLedge 1)).joints = (exLedge 1).joints := by
    rw [prepared_joints _ _ _ _ _ _ _ _ _ _ (by simp [exLedge, Preparable])]
    simp [exLedge, Joint.preStep, SimpleMotor.preStep]
  have b : (prepared realMth 1000 (1/10) (1/2) 1 ⟨0, 0⟩ [] 1 1 (exLedge 1)).bodies = (exLedge 1).bodies := by
    funext k
    by_cases k0 : k = 0
    · subst k0
      simp [prepared, SolverState.cached, SolverState.velocities, SolverState.preStep, exLedge, linkLoop, putPair, Joint.preStep, SimpleMotor.preStep, Joint.applyCached, SimpleMotor.applyCached, spin,
        Arbiter.applyCachedImpulse, Arbiter.preStep, Arbiter.preStepContact, applyImpulses, V2.rotate, V2.scale, Body.blank, V2.zero]
    · by_cases k1 : k = 1
      · subst k1
        simp [prepared, SolverState.cached, SolverState.velocities, SolverState.preStep, exLedge, linkLoop, putPair, Joint.preStep, SimpleMotor.preStep, Joint.applyCached, SimpleMotor.applyCached, spin,
          Arbiter.applyCachedImpulse, Arbiter.preStep, Arbiter.preStepContact, applyImpulses, V2.rotate, V2.scale, Body.blank, V2.zero]
      · simp [prepared, SolverState.cached, SolverState.velocities, SolverState.preStep, exLedge, linkLoop, putPair, k0, k1]
  generalize prepared realMth 1000 (1/10) (1/2) 1 ⟨0, 0⟩ [] 1 1 (exLedge 1) = t at a b j
  cases t
  simp only at a b j
  rw [a, b, j]

example : (∀ l ∈ (exLedge 1).arbs, Pushable (exLedge 1).bodies l ∧ Smooth l ∧ ∀ c ∈ l.it.contacts, 0 ≤ c.jnAcc) ∧
    (∀ l ∈ (exLedge 1).joints, l.ia ≠ l.ib ∧ Movable ((exLedge 1).bodies l.ia) ((exLedge 1).bodies l.ib) ∧ Turnable ((exLedge 1).bodies l.ia) ((exLedge 1).bodies l.ib) ∧
      Preparable l.it ((exLedge 1).bodies l.ia) ((exLedge 1).bodies l.ib)) ∧
    ∀ n, (exLedge 1).solve realMth 1000 (1/10) (1/2) 1 ⟨0, 0⟩ [] 1 1 n = exLedge (1 / 2 ^ n) := by
  refine ⟨?_, ?_, fun n => ?_⟩
  · intro l hl
    simp only [exLedge, List.mem_cons, List.not_mem_nil, or_false] at hl
    subst hl
    exact ⟨⟨by simp, by norm_num, by simp [exLedge]⟩, ⟨by norm_num, by simp [V2.dot], by simp⟩, by simp⟩
  · simp [exLedge, Movable, Turnable, Preparable]
  · have : (exLedge 1).solve realMth 1000 (1/10) (1/2) 1 ⟨0, 0⟩ [] 1 1 n = (SolverState.iterate realMth 1)^[n] (prepared realMth 1000 (1/10) (1/2) 1 ⟨0, 0⟩ [] 1 1 (exLedge 1)) := rfl
    rw [this, exLedge_ready, exLedge_all]

end Cm
