import Verif.Props.AllMeet
/-! # Going round inequalities and equations together: each round comes nearer to the solution -/
set_option linter.unusedSectionVars false
set_option linter.unusedSimpArgs false
set_option linter.unusedVariables false

namespace Cm
namespace Mix
open Descent
variable {K : Type} [Field K] [LinearOrder K] [IsStrictOrderedRing K] {V : Type} [AddCommGroup V] [Module K V] {B : V →ₗ[K] V →ₗ[K] K}

/-- A rough root. -/
theorem rough_root [Archimedean K] {z : K} (hz : 0 ≤ z) : ∃ r : K, 0 ≤ r ∧ z ≤ r ^ 2 ∧ r ^ 2 ≤ 4 * z := by
  rcases hz.eq_or_lt with rfl | h
  · exact ⟨0, le_rfl, by simp, by simp⟩
  · obtain ⟨n, h1, h2⟩ := exists_mem_Ico_zpow h (show (1 : K) < 4 by norm_num)
    have e : ((2 : K) ^ (n + 1)) ^ 2 = 4 ^ (n + 1) := by
      rw [← zpow_natCast, ← zpow_mul, mul_comm, zpow_mul]; norm_num
    refine ⟨2 ^ (n + 1), by positivity, by rw [e]; exact h2.le, ?_⟩
    rw [e, zpow_add₀ (by norm_num), zpow_one]
    linarith

theorem root_le {a b c D Δ : K} (hc : 0 ≤ c) (hD : 0 ≤ D) (hΔ : Δ ≤ D ^ 2) (h : a ^ 2 ≤ c * Δ) : |a| ≤ (c + 1) * D := by
  refine abs_le_of_sq_le_sq ?_ (by positivity)
  have h1 : c * Δ ≤ c * D ^ 2 := mul_le_mul_of_nonneg_left hΔ hc
  have h2 : 0 ≤ (c ^ 2 + c + 1) * D ^ 2 := by positivity
  nlinarith

/-- The change of a pass is paid for. -/
theorem pass_energy (sym : ∀ x y, B x y = B y x) (psd : ∀ x, 0 ≤ B x x) {L : List (List V)} {x y : V} (h : Tie.Pass B L x y) :
    B (y - x) (y - x) ≤ 2 ^ L.length * (B x x - B y y) := by
  have c := Tie.pass_change sym psd (y - x) L x y h
  have f := Tie.pass_falls sym psd L x y h
  rcases (psd (y - x)).eq_or_lt with h0 | h0
  · rw [← h0]
    have : (0 : K) ≤ 2 ^ L.length := by positivity
    exact mul_nonneg this (by linarith)
  · have : B (y - x) (y - x) * B (y - x) (y - x) ≤ B (y - x) (y - x) * (2 ^ L.length * (B x x - B y y)) := by nlinarith
    exact le_of_mul_le_mul_left this h0

/-- What the directions make does little work along velocities that are small along each of them. -/
theorem made_work (sym : ∀ x y, B x y = B y x) (psd : ∀ x, 0 ≤ B x x) (ds : List V) :
    ∃ C : K, 0 ≤ C ∧ ∀ p ∈ Tie.Made (K := K) ds, ∀ x, (B p x) ^ 2 ≤ C * B p p * (ds.map fun d => (B d x) ^ 2).sum := by
  obtain ⟨C, c0, hC⟩ := Tie.gram (B := B) sym psd ds
  refine ⟨C, c0, fun p hp x => ?_⟩
  obtain ⟨q, q1, q2⟩ := Tie.part (B := B) sym psd x ds
  have e : ∀ d ∈ ds, B d x = B d q := fun d hd => by
    have := q2 d hd
    rw [map_sub, sub_eq_zero] at this
    exact this
  have e1 : B p x = B p q := by
    have := Tie.made_zero q2 hp
    rw [map_sub, sub_eq_zero] at this
    exact this
  have e2 : (ds.map fun d => (B d x) ^ 2) = ds.map fun d => (B d q) ^ 2 := List.map_congr_left fun d hd => by rw [e d hd]
  rw [e1, e2]
  have := mul_le_mul_of_nonneg_left (hC q q1) (psd p)
  have := Tie.cauchy sym psd p q
  linarith

theorem length_add (sym : ∀ x y, B x y = B y x) (psd : ∀ x, 0 ≤ B x x) {x y : V} {a b : K} (ha : 0 ≤ a) (hb : 0 ≤ b) (hx : B x x ≤ a ^ 2) (hy : B y y ≤ b ^ 2) :
    B (x + y) (x + y) ≤ (a + b) ^ 2 := by
  have c : (B x y) ^ 2 ≤ (a * b) ^ 2 := by
    rw [mul_pow]
    exact (Tie.cauchy sym psd x y).trans (mul_le_mul hx hy (psd y) (sq_nonneg a))
  have := (abs_le.1 (abs_le_of_sq_le_sq c (mul_nonneg ha hb))).2
  simp only [map_add, LinearMap.add_apply]
  rw [sym y x]
  nlinarith

/-- One round. -/
theorem round_bound (sym : ∀ x y, B x y = B y x) (psd : ∀ x, 0 ≤ B x x) {ps : List (Row K V × K)} {L : List (List V)} {x x' G : V} {C α D : K} (hC : 0 ≤ C) (hα : 0 < α) (hD : 0 ≤ D)
    (hp : ∀ p ∈ ps, Good B p.1 ∧ 0 ≤ p.2) (h1 : ∀ p ∈ ps, ∀ p' ∈ ps, |B p.1.d p'.1.d| ≤ C) (h2 : ∀ p ∈ ps, α ≤ B p.1.d p.1.d)
    (h3 : ∀ ds ∈ L, ∀ d ∈ ds, B d d ≤ C) (hpass : Tie.Pass B L (sweep B ps x).1 x') (hx : x' = place (sweep B ps x).2 + G)
    (hs : pot B ps x - pot B (sweep B ps x).2 x' ≤ D ^ 2) :
    travel B ps x ≤ (ps.length / α + 1) * D ∧ B (x' - (sweep B ps x).1) (x' - (sweep B ps x).1) ≤ ((2 ^ L.length + 1) * D) ^ 2 ∧
    (∀ ds ∈ L, ∀ d ∈ ds, |B d x'| ≤ (2 ^ L.length * C + 1) * D) ∧
    pot B (sweep B ps x).2 x' ≤ 2 * ((((sweep B ps x).2.map Prod.snd).sum + (ps.map fun p => p.1.ls).sum) * ((C * (ps.length / α + 1) + (2 ^ L.length * C + 1)) * D) + B G x') := by
  have hp' : ∀ p ∈ ps, 0 < B p.1.d p.1.d ∧ 0 ≤ p.2 := fun p h => ⟨(hp p h).1.pos, (hp p h).2⟩
  obtain ⟨f1, f2⟩ := mix_falls sym psd hp' hpass
  have u0 := used_nonneg (x := x) fun p h => (hp' p h).1
  set Δ := pot B ps x - pot B (sweep B ps x).2 x' with hΔ
  set y := (sweep B ps x).1 with hy
  have d1 : used B ps x ≤ Δ := by linarith
  have d2 : B y y - B x' x' ≤ Δ := by linarith
  have d0 : 0 ≤ Δ := u0.trans d1
  have n2 : 0 ≤ B y y - B x' x' := by linarith
  have pw : (0 : K) ≤ 2 ^ L.length := by positivity
  have T0 := travel_nonneg (B := B) ps x
  have T : travel B ps x ≤ (ps.length / α + 1) * D := by
    have T1 := travel_used hα.le ps x h2
    have T2 : travel B ps x ^ 2 ≤ ps.length / α * Δ := by
      rw [div_mul_eq_mul_div, le_div_iff₀ hα]
      have : (ps.length : K) * used B ps x ≤ ps.length * Δ := mul_le_mul_of_nonneg_left d1 (Nat.cast_nonneg _)
      linarith
    have := root_le (b := 0) (by positivity) hD hs T2
    rwa [abs_of_nonneg T0] at this
  have q2 : ∀ (d : V) (a : K), B d d ≤ C → a ^ 2 ≤ 2 ^ L.length * B d d * (B y y - B x' x') → |a| ≤ (2 ^ L.length * C + 1) * D := by
    intro d a hd ha
    refine root_le (b := 0) (by positivity) hD hs (ha.trans ?_)
    exact mul_le_mul (mul_le_mul_of_nonneg_left hd pw) d2 n2 (by positivity)
  refine ⟨T, ?_, fun ds hds d hd => q2 d _ (h3 ds hds d hd) (Tie.pass_met sym psd _ _ _ hpass ds hds d hd), ?_⟩
  · refine (pass_energy sym psd hpass).trans ?_
    have e1 : 2 ^ L.length * (B y y - B x' x') ≤ 2 ^ L.length * D ^ 2 := mul_le_mul_of_nonneg_left (d2.trans hs) pw
    have e2 : 0 ≤ ((2 ^ L.length) ^ 2 + 2 ^ L.length + 1) * D ^ 2 := by positivity
    nlinarith
  · set t := (C * (ps.length / α + 1) + (2 ^ L.length * C + 1)) * D with ht
    have hr : ((sweep B ps x).2.map fun p => p.1.ls) = ps.map fun p => p.1.ls := by
      have := congrArg (List.map Row.ls) (sweep_rows (B := B) ps x)
      simpa [List.map_map, Function.comp_def] using this
    have hg := sweep_good (P := Good B) (B := B) ps x hp
    have met : ∀ p ∈ (sweep B ps x).2, -t ≤ B p.1.d x' + p.1.ws ∧ p.2 * (B p.1.d x' + p.1.ws) ≤ p.2 * t := by
      intro p hq
      obtain ⟨m1, m2⟩ := sweep_met hC ps x (fun p h => (hp' p h).1) h1 p hq
      obtain ⟨p0, hp0, e0⟩ : ∃ p0 ∈ ps, p0.1 = p.1 := by
        have : p.1 ∈ (sweep B ps x).2.map Prod.fst := List.mem_map.2 ⟨p, hq, rfl⟩
        rw [sweep_rows] at this
        exact List.mem_map.1 this
      have dd : B p.1.d p.1.d ≤ C := by rw [← e0]; exact (le_abs_self _).trans (h1 p0 hp0 p0 hp0)
      have S := q2 p.1.d _ dd (Tie.pass_change sym psd p.1.d _ _ _ hpass)
      rw [map_sub, abs_le] at S
      have CT := mul_le_mul_of_nonneg_left T hC
      have l0 := (hg p hq).2
      have te : t = C * ((ps.length / α + 1) * D) + (2 ^ L.length * C + 1) * D := by rw [ht]; ring
      constructor
      · linarith [S.1]
      · have m3 := mul_le_mul_of_nonneg_left CT l0
        have m4 := mul_le_mul_of_nonneg_left S.2 l0
        rw [te]
        linarith
    have b := sum_bound (B := B) (sweep B ps x).2 (fun r => B r.d x' + r.ws) (t := t) fun p hq => ⟨(hg p hq).1, (hg p hq).2, met p hq⟩
    have e : B x' x' = ((sweep B ps x).2.map fun p => (p.2 - p.1.ls) * (B p.1.d x' + p.1.ws - p.1.ws)).sum + B G x' := by
      have : ∀ l : List (Row K V × K), B (place l) x' = (l.map fun p => (p.2 - p.1.ls) * (B p.1.d x' + p.1.ws - p.1.ws)).sum := by
        intro l
        induction l with
        | nil => simp [place]
        | cons p l ih =>
          simp only [place, List.map_cons, List.sum_cons, map_add, LinearMap.add_apply, map_smul, LinearMap.smul_apply, smul_eq_mul] at ih ⊢
          rw [ih, add_sub_cancel_right]
      rw [← this, ← LinearMap.add_apply, ← map_add, ← hx]
    rw [hr] at b
    have := psd x'
    unfold pot
    linarith

theorem last_bound {p l0 ls g S d C c1 c2 c3 c6 load w : K} (hC : 0 ≤ C) (h1 : 0 ≤ c1) (h2 : 0 ≤ c2) (h3 : 0 ≤ c3) (h6 : 0 ≤ c6) (hl0 : 0 ≤ l0) (hls : 0 ≤ ls) (hg : 0 ≤ g)
    (hS : 0 ≤ S) (hd : 0 ≤ d) (hp : p ≤ 2 * ((load + ls) * ((C * c1 + c2) * d) + w)) (hl : load ≤ l0 + c1 * S) (hw : w ≤ c6 * (g + c3 * S) * (c2 * d)) :
    p ≤ 2 * ((c1 + 1) * (C * c1 + c2) + c6 * c2 * (c3 + 1)) * (l0 + ls + g + S) * d := by
  have a1 : load + ls ≤ (c1 + 1) * (l0 + ls + g + S) := by
    have e : (c1 + 1) * (l0 + ls + g + S) = l0 + c1 * S + ls + (c1 * l0 + c1 * ls + c1 * g + g + S) := by ring
    have : 0 ≤ c1 * l0 + c1 * ls + c1 * g + g + S := by positivity
    linarith
  have a2 : g + c3 * S ≤ (c3 + 1) * (l0 + ls + g + S) := by
    have e : (c3 + 1) * (l0 + ls + g + S) = g + c3 * S + (c3 * l0 + c3 * ls + c3 * g + l0 + ls + S) := by ring
    have : 0 ≤ c3 * l0 + c3 * ls + c3 * g + l0 + ls + S := by positivity
    linarith
  have a3 : (load + ls) * ((C * c1 + c2) * d) ≤ (c1 + 1) * (l0 + ls + g + S) * ((C * c1 + c2) * d) := mul_le_mul_of_nonneg_right a1 (by positivity)
  have a4 : c6 * (g + c3 * S) * (c2 * d) ≤ c6 * ((c3 + 1) * (l0 + ls + g + S)) * (c2 * d) :=
    mul_le_mul_of_nonneg_right (mul_le_mul_of_nonneg_left a2 h6) (by positivity)
  calc p ≤ 2 * ((c1 + 1) * (l0 + ls + g + S) * ((C * c1 + c2) * d) + c6 * ((c3 + 1) * (l0 + ls + g + S)) * (c2 * d)) := by linarith
    _ = _ := by ring

set_option maxHeartbeats 1000000 in
/-- The rounds come as near as one likes to the solution. -/
theorem rounds_converge [Archimedean K] (sym : ∀ x y, B x y = B y x) (psd : ∀ x, 0 ≤ B x x) (L : List (List V)) (X : Nat → V) (Q : Nat → List (Row K V × K))
    (hQ : ∀ n, Q (n + 1) = (sweep B (Q n) (X n)).2) (hX : ∀ n, Tie.Pass B L (sweep B (Q n) (X n)).1 (X (n + 1))) (h0 : X 0 - place (Q 0) ∈ Tie.Made (K := K) L.flatten)
    (hg : ∀ p ∈ Q 0, Good B p.1 ∧ 0 ≤ p.2) : ∀ ε > 0, ∃ n0, ∀ n ≥ n0, B (X n) (X n) ≤ ε := by
  have rows : ∀ n, (Q n).map Prod.fst = (Q 0).map Prod.fst := by
    intro n
    induction n with
    | zero => rfl
    | succ n ih => rw [hQ, sweep_rows, ih]
  have good : ∀ n, ∀ p ∈ Q n, Good B p.1 ∧ 0 ≤ p.2 := by
    intro n
    induction n with
    | zero => exact hg
    | succ n ih => rw [hQ]; exact sweep_good (P := Good B) _ _ ih
  have len : ∀ n, (Q n).length = (Q 0).length := fun n => by
    have := congrArg List.length (rows n); simpa using this
  have lss : ∀ n, ((Q n).map fun p => p.1.ls) = (Q 0).map fun p => p.1.ls := fun n => by
    have := congrArg (List.map Row.ls) (rows n)
    simpa [List.map_map, Function.comp_def] using this
  set G := fun n => X n - place (Q n) with hG
  have gs : ∀ n, G (n + 1) = G n + (X (n + 1) - (sweep B (Q n) (X n)).1) := by
    intro n
    have := sweep_place (B := B) (Q n) (X n)
    simp only [hG, hQ n]
    rw [← this]
    abel
  have gm : ∀ n, G n ∈ Tie.Made (K := K) L.flatten := by
    intro n
    induction n with
    | zero => exact h0
    | succ n ih => rw [gs]; exact Submodule.add_mem _ ih (Tie.pass_made _ _ _ (hX n))
  -- bounds for all constraints
  obtain ⟨C, c0, hC⟩ := Tie.bounded (B := B) (((Q 0).map fun p => p.1.d) ++ L.flatten)
  have hLb : ∀ ds ∈ L, ∀ d ∈ ds, B d d ≤ C := fun ds hds d hd => hC d (List.mem_append_right _ (List.mem_flatten.2 ⟨ds, hds, hd⟩))
  have back : ∀ n, ∀ p ∈ Q n, ∃ p0 ∈ Q 0, p0.1 = p.1 := fun n p hp => by
    have : p.1 ∈ (Q n).map Prod.fst := List.mem_map.2 ⟨p, hp, rfl⟩
    rw [rows] at this
    exact List.mem_map.1 this
  have hRb : ∀ n, ∀ p ∈ Q n, ∀ p' ∈ Q n, |B p.1.d p'.1.d| ≤ C := by
    intro n p hp p' hp'
    obtain ⟨q, hq, e⟩ := back n p hp
    obtain ⟨q', hq', e'⟩ := back n p' hp'
    have b1 := hC q.1.d (List.mem_append_left _ (List.mem_map.2 ⟨q, hq, rfl⟩))
    have b2 := hC q'.1.d (List.mem_append_left _ (List.mem_map.2 ⟨q', hq', rfl⟩))
    rw [e] at b1
    rw [e'] at b2
    refine abs_le_of_sq_le_sq ((Tie.cauchy sym psd p.1.d p'.1.d).trans ?_) c0.le
    rw [sq]
    exact mul_le_mul b1 b2 (psd _) c0.le
  obtain ⟨α, hα, hα0⟩ : ∃ α : K, 0 < α ∧ ∀ p ∈ Q 0, α ≤ B p.1.d p.1.d := by
    have : ∀ l : List (Row K V × K), (∀ p ∈ l, 0 < B p.1.d p.1.d) → ∃ α : K, 0 < α ∧ ∀ p ∈ l, α ≤ B p.1.d p.1.d := by
      intro l
      induction l with
      | nil => intro _; exact ⟨1, one_pos, by simp⟩
      | cons q l ih =>
        intro hl
        obtain ⟨C, c1, c2⟩ := ih fun r hr => hl r (by simp [hr])
        refine ⟨min C (B q.1.d q.1.d), lt_min c1 (hl q (by simp)), fun q' hq' => ?_⟩
        rcases List.mem_cons.1 hq' with rfl | hq'
        · exact min_le_right _ _
        · exact (min_le_left _ _).trans (c2 q' hq')
    exact this _ fun p hp => (hg p hp).1.pos
  have hαb : ∀ n, ∀ p ∈ Q n, α ≤ B p.1.d p.1.d := fun n p hp => by
    obtain ⟨q, hq, e⟩ := back n p hp
    rw [← e]; exact hα0 q hq
  obtain ⟨W, w0, hW⟩ := made_work (B := B) sym psd L.flatten
  set E := fun n => pot B (Q n) (X n) with hE
  have fall : ∀ n, E (n + 1) ≤ E n := fun n => by
    obtain ⟨f1, f2⟩ := mix_falls sym psd (fun p h => ⟨(good n p h).1.pos, (good n p h).2⟩) (hX n)
    have u0 := used_nonneg (x := X n) fun p h => (good n p h).1.pos
    simp only [hE]
    rw [hQ n]
    linarith
  choose D D0 D1 D2 using fun n => rough_root (sub_nonneg.2 (fall n))
  have rb := fun n => round_bound (G := G (n + 1)) sym psd c0.le hα (D0 n) (good n) (hRb n) (hαb n) hLb (hX n) (by rw [← hQ n]; simp only [hG]; abel) (by rw [← hQ n]; exact D1 n)
  simp only [len, lss] at rb
  set c1 : K := (Q 0).length / α + 1 with hc1
  set c2 : K := 2 ^ L.length * C + 1 with hc2
  set c3 : K := 2 ^ L.length + 1 with hc3
  have c1p : 0 ≤ c1 := by positivity
  have c2p : 0 ≤ c2 := by positivity
  have c3p : 0 ≤ c3 := by positivity
  set l0 := ((Q 0).map Prod.snd).sum with hl0
  set ls := ((Q 0).map fun p => p.1.ls).sum with hls
  have l0p : 0 ≤ l0 := List.sum_nonneg fun z hz => by
    obtain ⟨p, hp, rfl⟩ := List.mem_map.1 hz; exact (hg p hp).2
  have lsp : 0 ≤ ls := List.sum_nonneg fun z hz => by
    obtain ⟨p, hp, rfl⟩ := List.mem_map.1 hz; exact (hg p hp).1.ls
  set g : K := B (G 0) (G 0) + 1 with hgd
  have gp : 0 ≤ g := by have := psd (G 0); linarith
  set Sm := fun n => ∑ j ∈ Finset.range n, D j with hSm
  have Sp : ∀ n, 0 ≤ Sm n := fun n => Finset.sum_nonneg fun j _ => D0 j
  have loads : ∀ n, ((Q n).map Prod.snd).sum ≤ l0 + c1 * Sm n := by
    intro n
    induction n with
    | zero => simp [hSm, hl0]
    | succ n ih =>
      have a := load_sum (B := B) (Q n) (X n)
      rw [← hQ n] at a
      have b := (rb n).1
      simp only [hSm] at ih ⊢
      rw [Finset.sum_range_succ]
      linarith
  have gl : ∀ n, B (G n) (G n) ≤ (g + c3 * Sm n) ^ 2 := by
    intro n
    induction n with
    | zero =>
      have := psd (G 0)
      simp only [hSm, Finset.range_zero, Finset.sum_empty, mul_zero, add_zero]
      rw [hgd]; nlinarith
    | succ n ih =>
      rw [gs]
      refine (length_add sym psd (add_nonneg gp (mul_nonneg c3p (Sp n))) (mul_nonneg c3p (D0 n)) ih (rb n).2.1).trans (le_of_eq ?_)
      simp only [hSm]
      rw [Finset.sum_range_succ]
      ring
  set m : K := (L.flatten.length : K) with hm
  have mp : 0 ≤ m := Nat.cast_nonneg _
  set c6 : K := W * m + 1 with hc6
  have c6p : 0 ≤ c6 := by positivity
  have work : ∀ n, B (G (n + 1)) (X (n + 1)) ≤ c6 * (g + c3 * Sm (n + 1)) * (c2 * D n) := by
    intro n
    have h1 := hW _ (gm (n + 1)) (X (n + 1))
    have h2 : (L.flatten.map fun d => (B d (X (n + 1))) ^ 2).sum ≤ m * (c2 * D n) ^ 2 := Tie.sum_le fun d hd => by
      obtain ⟨ds, hds, hd⟩ := List.mem_flatten.1 hd
      have := (rb n).2.2.1 ds hds d hd
      rw [← sq_abs]
      exact pow_le_pow_left₀ (abs_nonneg _) this 2
    have h3 := gl (n + 1)
    set a := g + c3 * Sm (n + 1) with ha
    have ap : 0 ≤ a := add_nonneg gp (mul_nonneg c3p (Sp _))
    set b := c2 * D n with hb
    have bp : 0 ≤ b := mul_nonneg c2p (D0 n)
    have h4 : (B (G (n + 1)) (X (n + 1))) ^ 2 ≤ W * a ^ 2 * (m * b ^ 2) :=
      h1.trans (mul_le_mul (mul_le_mul_of_nonneg_left h3 w0) h2 (Tie.sum_sq_nonneg (B := B) _ _) (by positivity))
    have h5 : W * a ^ 2 * (m * b ^ 2) ≤ (c6 * a * b) ^ 2 := by
      have : (W * m) ≤ c6 ^ 2 := by
        have : 0 ≤ W * m := mul_nonneg w0 mp
        rw [hc6]; nlinarith
      calc W * a ^ 2 * (m * b ^ 2) = (W * m) * (a * b) ^ 2 := by ring
        _ ≤ c6 ^ 2 * (a * b) ^ 2 := mul_le_mul_of_nonneg_right this (sq_nonneg _)
        _ = (c6 * a * b) ^ 2 := by ring
    exact (abs_le.1 (abs_le_of_sq_le_sq (h4.trans h5) (by positivity))).2
  have Xle : ∀ n, B (X n) (X n) ≤ E n := fun n => by
    have : 0 ≤ ((Q n).map fun p => p.2 * p.1.ws).sum := List.sum_nonneg fun z hz => by
      obtain ⟨p, hp, rfl⟩ := List.mem_map.1 hz
      exact mul_nonneg (good n p hp).2 (good n p hp).1.ws
    simp only [hE, pot]; linarith
  have key := falls (E := E) (D := D) (q := 1 / 4) (c := 2 * ((c1 + 1) * (C * c1 + c2) + c6 * c2 * (c3 + 1))) (g := l0 + ls + g) (by norm_num) (by positivity) (by positivity)
    (fun n => (psd _).trans (Xle n)) D0 (fun n => by have := D2 n; linarith) (fun n => by
      have h1 := (rb n).2.2.2
      rw [← hQ n] at h1
      have h2 := loads (n + 1)
      have h3 := work n
      have S0 := Sp (n + 1)
      have d := D0 n
      show pot B (Q (n + 1)) (X (n + 1)) ≤ _
      set S := ∑ j ∈ Finset.range (n + 1), D j with hS
      have eS : Sm (n + 1) = S := rfl
      rw [eS] at h2 h3 S0
      exact last_bound c0.le c1p c2p c3p c6p l0p lsp gp S0 d h1 h2 h3)
  intro ε hε
  obtain ⟨n0, hn⟩ := key ε hε
  exact ⟨n0, fun n h => (Xle n).trans (hn n h)⟩

end Mix
end Cm
