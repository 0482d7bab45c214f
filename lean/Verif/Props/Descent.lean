import Verif.Props.Energy
import Mathlib.LinearAlgebra.BilinearMap
import Mathlib.Algebra.Order.Chebyshev
/-! # Going round constraints one at a time: each sweep comes nearer to the solution -/
set_option linter.unusedSectionVars false
set_option linter.unusedSimpArgs false
set_option linter.unusedVariables false

namespace Cm
namespace Descent
variable {K : Type} [Field K] [LinearOrder K] [IsStrictOrderedRing K]

/-! ## A sequence that has to fall -/

theorem sum_sq_le (D : Nat → K) (n : Nat) : (∑ k ∈ Finset.range n, D k) ^ 2 ≤ n * ∑ k ∈ Finset.range n, D k ^ 2 := by
  have := sq_sum_le_card_mul_sum_sq (s := Finset.range n) (f := D)
  simpa using this

theorem falls [Archimedean K] {E D : Nat → K} {q c g : K} (hq : 0 < q) (hc : 0 ≤ c) (hg : 0 ≤ g) (hE : ∀ k, 0 ≤ E k) (hD : ∀ k, 0 ≤ D k)
    (h1 : ∀ k, E (k + 1) + q * D k ^ 2 ≤ E k) (h2 : ∀ k, E (k + 1) ≤ c * (g + ∑ j ∈ Finset.range (k + 1), D j) * D k) :
    ∀ ε > 0, ∃ n0, ∀ n ≥ n0, E n ≤ ε := by
  intro ε hε
  have anti : ∀ k, E (k + 1) ≤ E k := fun k => by nlinarith [h1 k, mul_nonneg hq.le (sq_nonneg (D k))]
  suffices H : ∃ n, E n ≤ ε by
    obtain ⟨n, hn⟩ := H
    refine ⟨n, fun m hm => ?_⟩
    exact (antitone_nat_of_succ_le anti hm).trans hn
  by_contra hno
  push Not at hno
  set Q := E 0 / q with hQ
  have hsum : ∀ n, E n + q * ∑ k ∈ Finset.range n, D k ^ 2 ≤ E 0 := by
    intro n
    induction n with
    | zero => simp
    | succ n ih => rw [Finset.sum_range_succ]; nlinarith [h1 n]
  have hS : ∀ n, ∑ k ∈ Finset.range n, D k ^ 2 ≤ Q := fun n => by
    rw [hQ, le_div_iff₀ hq]
    nlinarith [hsum n, hE n]
  have hQ0 : 0 ≤ Q := div_nonneg (hE 0) hq.le
  set R := 2 * g ^ 2 + 4 * Q with hR
  have hR0 : 0 ≤ R := by positivity
  -- one late term
  have term : ∀ n k : Nat, 1 ≤ n → k < 2 * n → ε ^ 2 ≤ c ^ 2 * R * (n * D k ^ 2) := by
    intro n k hn hk
    have e1 := (hno (k + 1)).trans_le (h2 k)
    set T := ∑ j ∈ Finset.range (k + 1), D j with hT
    have hT0 : 0 ≤ T := Finset.sum_nonneg fun j _ => hD j
    have e2 : T ^ 2 ≤ 2 * n * Q := by
      refine (sum_sq_le D (k + 1)).trans ?_
      have : ((k + 1 : Nat) : K) ≤ 2 * n := by exact_mod_cast hk
      have hs0 : 0 ≤ ∑ j ∈ Finset.range (k + 1), D j ^ 2 := Finset.sum_nonneg fun j _ => sq_nonneg _
      calc ((k + 1 : Nat) : K) * ∑ j ∈ Finset.range (k + 1), D j ^ 2 ≤ (2 * n) * ∑ j ∈ Finset.range (k + 1), D j ^ 2 := mul_le_mul_of_nonneg_right this hs0
        _ ≤ 2 * n * Q := mul_le_mul_of_nonneg_left (hS _) (by positivity)
    have e3 : (g + T) ^ 2 ≤ n * R := by
      have hn' : (1 : K) ≤ n := by exact_mod_cast hn
      have : (g + T) ^ 2 ≤ 2 * g ^ 2 + 2 * T ^ 2 := by nlinarith [sq_nonneg (g - T)]
      have h4 : g ^ 2 ≤ n * g ^ 2 := by nlinarith [sq_nonneg g]
      rw [hR]; nlinarith
    have e4 : ε ^ 2 ≤ (c * (g + T) * D k) ^ 2 := pow_le_pow_left₀ hε.le e1.le 2
    calc ε ^ 2 ≤ (c * (g + T) * D k) ^ 2 := e4
      _ = c ^ 2 * D k ^ 2 * (g + T) ^ 2 := by ring
      _ ≤ c ^ 2 * D k ^ 2 * (n * R) := mul_le_mul_of_nonneg_left e3 (by positivity)
      _ = c ^ 2 * R * (n * D k ^ 2) := by ring
  have blocks : ∀ J : Nat, J * ε ^ 2 ≤ c ^ 2 * R * ∑ k ∈ Finset.range (2 ^ J), D k ^ 2 := by
    intro J
    induction J with
    | zero =>
      have : 0 ≤ c ^ 2 * R * ∑ k ∈ Finset.range (2 ^ 0), D k ^ 2 := mul_nonneg (by positivity) (Finset.sum_nonneg fun _ _ => sq_nonneg _)
      simpa using this
    | succ J ih =>
      have hn : 1 ≤ 2 ^ J := Nat.one_le_two_pow
      have e : 2 ^ (J + 1) = 2 ^ J + 2 ^ J := by rw [pow_succ]; omega
      rw [e, Finset.sum_range_add]
      have : ε ^ 2 ≤ c ^ 2 * R * ∑ x ∈ Finset.range (2 ^ J), D (2 ^ J + x) ^ 2 := by
        have hpos : (0 : K) < (2 ^ J : Nat) := by exact_mod_cast hn
        have h5 : ∑ x ∈ Finset.range (2 ^ J), ε ^ 2 ≤ ∑ x ∈ Finset.range (2 ^ J), c ^ 2 * R * ((2 ^ J : Nat) * D (2 ^ J + x) ^ 2) :=
          Finset.sum_le_sum fun x hx => term _ _ hn (by have := Finset.mem_range.1 hx; omega)
        rw [Finset.sum_const, Finset.card_range, nsmul_eq_mul, ← Finset.mul_sum, ← Finset.mul_sum] at h5
        have h6 : ((2 ^ J : Nat) : K) * ε ^ 2 ≤ (2 ^ J : Nat) * (c ^ 2 * R * ∑ x ∈ Finset.range (2 ^ J), D (2 ^ J + x) ^ 2) := by linarith
        exact le_of_mul_le_mul_left h6 hpos
      push_cast
      linarith
  obtain ⟨J, hJ⟩ := exists_nat_gt (c ^ 2 * R * Q / ε ^ 2)
  rw [div_lt_iff₀ (by positivity)] at hJ
  have := (blocks J).trans (mul_le_mul_of_nonneg_left (hS _) (by positivity : 0 ≤ c ^ 2 * R))
  linarith

/-! ## Sweeps -/
variable {V : Type} [AddCommGroup V] [Module K V]

/-- A constraint: the direction `d` in which its impulse moves the velocities, and its speed `ws` and impulse `ls` in the solution. -/
structure Row (K V : Type) where
  d : V
  ws : K
  ls : K

variable (B : V →ₗ[K] V →ₗ[K] K)

/-- The impulse after a constraint was looked at, when the velocities differ from the solution by `x`. -/
def hit (r : Row K V) (x : V) (l : K) : K := max (l - (B r.d x + r.ws) / B r.d r.d) 0

/-- One sweep over all constraints. -/
def sweep : List (Row K V × K) → V → V × List (Row K V × K)
  | [], x => (x, [])
  | p :: ps, x =>
    let l' := hit B p.1 x p.2
    let t := sweep ps (x + (l' - p.2) • p.1.d)
    (t.1, (p.1, l') :: t.2)

/-- How much the impulses changed in a sweep. -/
def travel : List (Row K V × K) → V → K
  | [], _ => 0
  | p :: ps, x => |hit B p.1 x p.2 - p.2| + travel ps (x + (hit B p.1 x p.2 - p.2) • p.1.d)

/-- What the changes of a sweep are worth. -/
def used : List (Row K V × K) → V → K
  | [], _ => 0
  | p :: ps, x => B p.1.d p.1.d * (hit B p.1 x p.2 - p.2) ^ 2 + used ps (x + (hit B p.1 x p.2 - p.2) • p.1.d)

structure Good (r : Row K V) : Prop where
  pos : 0 < B r.d r.d
  ws : 0 ≤ r.ws
  ls : 0 ≤ r.ls
  compl : r.ls * r.ws = 0

variable {B}

theorem hit_nonneg (r : Row K V) (x : V) (l : K) : 0 ≤ hit B r x l := le_max_right _ _

/-- After the impulse the constraint is met, and its impulse is zero unless it is met exactly. -/
theorem hit_met {r : Row K V} (hr : 0 < B r.d r.d) (x : V) (l : K) :
    0 ≤ B r.d (x + (hit B r x l - l) • r.d) + r.ws ∧ hit B r x l * (B r.d (x + (hit B r x l - l) • r.d) + r.ws) = 0 := by
  rw [map_add, map_smul, smul_eq_mul]
  unfold hit
  set a := B r.d r.d
  set w := B r.d x + r.ws with hw
  have e : B r.d x + (max (l - w / a) 0 - l) * a + r.ws = w + (max (l - w / a) 0 - l) * a := by rw [hw]; ring
  rw [e]
  rcases le_total 0 (l - w / a) with h | h
  · rw [max_eq_left h]
    have : w + (l - w / a - l) * a = 0 := by field_simp; ring
    rw [this]; simp
  · rw [max_eq_right h]
    have h3 : l * a ≤ w := by
      have : l ≤ w / a := by linarith
      rwa [le_div_iff₀ hr] at this
    exact ⟨by linarith, by ring⟩

theorem hit_pot (sym : ∀ x y, B x y = B y x) {r : Row K V} (hr : 0 < B r.d r.d) (x : V) {l : K} (hl : 0 ≤ l) :
    B (x + (hit B r x l - l) • r.d) (x + (hit B r x l - l) • r.d) + 2 * (hit B r x l * r.ws) + B r.d r.d * (hit B r x l - l) ^ 2 ≤ B x x + 2 * (l * r.ws) := by
  obtain ⟨m1, m2⟩ := hit_met hr x l
  have h0 := hit_nonneg (B := B) r x l
  set δ := hit B r x l - l with hδ
  rw [map_add, map_smul, smul_eq_mul] at m1 m2
  simp only [map_add, map_smul, LinearMap.add_apply, LinearMap.smul_apply, smul_eq_mul]
  rw [sym x r.d]
  have hh : hit B r x l = l + δ := by rw [hδ]; ring
  rw [hh] at m2 ⊢
  have m3 : 0 ≤ l * (B r.d x + δ * B r.d r.d + r.ws) := mul_nonneg hl m1
  nlinarith

theorem sweep_good {P : Row K V → Prop} (ps : List (Row K V × K)) : ∀ x, (∀ p ∈ ps, P p.1 ∧ 0 ≤ p.2) → ∀ p ∈ (sweep B ps x).2, P p.1 ∧ 0 ≤ p.2 := by
  induction ps with
  | nil => intro x _ p hp; simp [sweep] at hp
  | cons p0 ps ih =>
    intro x h p hp
    simp only [sweep, List.mem_cons] at hp
    rcases hp with rfl | hp
    · exact ⟨(h p0 (by simp)).1, hit_nonneg _ _ _⟩
    · exact ih _ (fun p hp => h p (by simp [hp])) p hp

theorem sweep_rows (ps : List (Row K V × K)) : ∀ x, (sweep B ps x).2.map Prod.fst = ps.map Prod.fst := by
  induction ps with
  | nil => intro x; rfl
  | cons p ps ih => intro x; simp [sweep, ih]

/-- The potential: the distance in velocity and the impulses that should not be there. -/
def pot (B : V →ₗ[K] V →ₗ[K] K) (ps : List (Row K V × K)) (x : V) : K := B x x + 2 * (ps.map fun p => p.2 * p.1.ws).sum

theorem sweep_pot (sym : ∀ x y, B x y = B y x) (ps : List (Row K V × K)) : ∀ x, (∀ p ∈ ps, 0 < B p.1.d p.1.d ∧ 0 ≤ p.2) →
    pot B (sweep B ps x).2 (sweep B ps x).1 + used B ps x ≤ pot B ps x := by
  induction ps with
  | nil => intro x _; simp [sweep, used, pot]
  | cons p ps ih =>
    intro x h
    obtain ⟨h1, h2⟩ := h p (by simp)
    have i1 := ih (x + (hit B p.1 x p.2 - p.2) • p.1.d) (fun p hp => h p (by simp [hp]))
    have i2 := hit_pot sym h1 x h2
    simp only [sweep, used, pot, List.map_cons, List.sum_cons] at i1 ⊢
    linarith

theorem travel_nonneg (ps : List (Row K V × K)) : ∀ x, 0 ≤ travel B ps x := by
  induction ps with
  | nil => intro x; exact le_rfl
  | cons p ps ih => intro x; exact add_nonneg (abs_nonneg _) (ih _)

/-- A sweep changes the speed of a constraint no more than its impulses can. -/
theorem sweep_speed {d : V} {C : K} (hC : 0 ≤ C) (ps : List (Row K V × K)) : ∀ x, (∀ p ∈ ps, |B d p.1.d| ≤ C) → |B d (sweep B ps x).1 - B d x| ≤ C * travel B ps x := by
  induction ps with
  | nil => intro x _; simp [sweep, travel]
  | cons p ps ih =>
    intro x h
    have i1 := ih (x + (hit B p.1 x p.2 - p.2) • p.1.d) (fun p hp => h p (by simp [hp]))
    simp only [sweep, travel]
    set δ := hit B p.1 x p.2 - p.2
    rw [map_add, map_smul, smul_eq_mul] at i1
    have e : |δ * B d p.1.d| ≤ C * |δ| := by
      rw [abs_mul, mul_comm]; exact mul_le_mul_of_nonneg_right (h p (by simp)) (abs_nonneg _)
    rw [abs_le] at *
    constructor <;> nlinarith [i1.1, i1.2, e.1, e.2]

theorem sweep_met {C : K} (hC : 0 ≤ C) (ps : List (Row K V × K)) : ∀ x, (∀ p ∈ ps, 0 < B p.1.d p.1.d) → (∀ p ∈ ps, ∀ p' ∈ ps, |B p.1.d p'.1.d| ≤ C) →
    ∀ p ∈ (sweep B ps x).2, -(C * travel B ps x) ≤ B p.1.d (sweep B ps x).1 + p.1.ws ∧ p.2 * (B p.1.d (sweep B ps x).1 + p.1.ws) ≤ p.2 * (C * travel B ps x) := by
  induction ps with
  | nil => intro x _ _ p hp; simp [sweep] at hp
  | cons p0 ps ih =>
    intro x h1 h2 p hp
    simp only [sweep, List.mem_cons] at hp
    simp only [sweep, travel]
    have t0 : 0 ≤ |hit B p0.1 x p0.2 - p0.2| := abs_nonneg _
    rcases hp with rfl | hp
    · obtain ⟨m1, m2⟩ := hit_met (h1 p0 (by simp)) x p0.2
      have i1 := sweep_speed (d := p0.1.d) hC ps (x + (hit B p0.1 x p0.2 - p0.2) • p0.1.d) (fun p hp => h2 p0 (by simp) p (by simp [hp]))
      have n0 := hit_nonneg (B := B) p0.1 x p0.2
      dsimp only
      set l' := hit B p0.1 x p0.2
      set x1 := x + (l' - p0.2) • p0.1.d
      rw [abs_le] at i1
      have ct := mul_nonneg hC t0
      constructor
      · nlinarith [i1.1]
      · have : l' * (B p0.1.d (sweep B ps x1).1 + p0.1.ws) = l' * (B p0.1.d (sweep B ps x1).1 - B p0.1.d x1) + l' * (B p0.1.d x1 + p0.1.ws) := by ring
        rw [this, m2, add_zero]
        exact mul_le_mul_of_nonneg_left (by nlinarith [i1.2]) n0
    · have i1 := ih (x + (hit B p0.1 x p0.2 - p0.2) • p0.1.d) (fun p hp => h1 p (by simp [hp])) (fun p hp p' hp' => h2 p (by simp [hp]) p' (by simp [hp'])) p hp
      have n0 := (sweep_good (P := fun _ => True) (B := B) ps (x + (hit B p0.1 x p0.2 - p0.2) • p0.1.d))
      have n1 : 0 ≤ p.2 := by
        clear n0 i1 ih
        revert hp
        generalize x + (hit B p0.1 x p0.2 - p0.2) • p0.1.d = y
        clear h1 h2
        induction ps generalizing y with
        | nil => intro hp; simp [sweep] at hp
        | cons q qs ih =>
          intro hp
          simp only [sweep, List.mem_cons] at hp
          rcases hp with rfl | hp
          · exact hit_nonneg _ _ _
          · exact ih _ hp
      have ct := mul_nonneg hC t0
      refine ⟨by nlinarith [i1.1], i1.2.trans (mul_le_mul_of_nonneg_left (by nlinarith) n1)⟩

/-- Where the velocities should be by the impulses. -/
def place (ps : List (Row K V × K)) : V := (ps.map fun p => (p.2 - p.1.ls) • p.1.d).sum

theorem sweep_place (ps : List (Row K V × K)) : ∀ x, (sweep B ps x).1 - place (sweep B ps x).2 = x - place ps := by
  induction ps with
  | nil => intro x; rfl
  | cons p ps ih =>
    intro x
    have i1 := ih (x + (hit B p.1 x p.2 - p.2) • p.1.d)
    simp only [sweep, place, List.map_cons, List.sum_cons] at i1 ⊢
    rw [sub_add_eq_sub_sub, sub_right_comm, i1]
    module

theorem place_speed (d : V) (ps : List (Row K V × K)) : B d (place ps) = (ps.map fun p => (p.2 - p.1.ls) * B d p.1.d).sum := by
  induction ps with
  | nil => simp [place]
  | cons p ps ih =>
    simp only [place, List.map_cons, List.sum_cons, map_add, map_smul, smul_eq_mul] at ih ⊢
    rw [ih]

theorem load_sum (ps : List (Row K V × K)) : ∀ x, ((sweep B ps x).2.map Prod.snd).sum ≤ (ps.map Prod.snd).sum + travel B ps x := by
  induction ps with
  | nil => intro x; simp [sweep, travel]
  | cons p ps ih =>
    intro x
    have i1 := ih (x + (hit B p.1 x p.2 - p.2) • p.1.d)
    simp only [sweep, travel, List.map_cons, List.sum_cons]
    have := le_abs_self (hit B p.1 x p.2 - p.2)
    linarith

theorem travel_used {α : K} (hα : 0 ≤ α) (ps : List (Row K V × K)) : ∀ x, (∀ p ∈ ps, α ≤ B p.1.d p.1.d) → α * travel B ps x ^ 2 ≤ ps.length * used B ps x := by
  induction ps with
  | nil => intro x _; simp [travel, used]
  | cons p ps ih =>
    intro x h
    have i1 := ih (x + (hit B p.1 x p.2 - p.2) • p.1.d) (fun p hp => h p (by simp [hp]))
    have t0 := travel_nonneg (B := B) ps (x + (hit B p.1 x p.2 - p.2) • p.1.d)
    have h0 := h p (by simp)
    simp only [travel, used, List.length_cons]
    set δ := hit B p.1 x p.2 - p.2
    set T := travel B ps (x + δ • p.1.d)
    set U := used B ps (x + δ • p.1.d)
    set a := B p.1.d p.1.d
    push_cast
    set m : K := (ps.length : K) with hm
    have hm0 : 0 ≤ m := Nat.cast_nonneg _
    have hU : 0 ≤ m * U := (mul_nonneg hα (sq_nonneg T)).trans i1
    have hδ : |δ| ^ 2 = δ ^ 2 := sq_abs δ
    -- the mixed term
    have mix : α * (2 * |δ| * T) ≤ m * (α * δ ^ 2) + U := by
      rcases hm0.eq_or_lt with h | h
      · have hn : ps = [] := List.length_eq_zero_iff.1 (by exact_mod_cast (h.trans hm).symm)
        have hT : T = 0 := by simp only [T, hn, travel]
        have hU' : U = 0 := by simp only [U, hn, used]
        rw [hT, hU', ← h]; simp
      · have : m * (α * (2 * |δ| * T)) ≤ m * (m * (α * δ ^ 2) + U) := by
          have e : α * (m * |δ| - T) ^ 2 = m * (m * (α * δ ^ 2)) - m * (α * (2 * |δ| * T)) + α * T ^ 2 := by linear_combination (α * m ^ 2) * hδ
          have := mul_nonneg hα (sq_nonneg (m * |δ| - T))
          linarith
        exact le_of_mul_le_mul_left this h
    have : (m + 1) * (α * δ ^ 2) ≤ (m + 1) * (a * δ ^ 2) := mul_le_mul_of_nonneg_left (mul_le_mul_of_nonneg_right h0 (sq_nonneg _)) (by linarith)
    nlinarith

theorem sum_bound (ps : List (Row K V × K)) (w : Row K V → K) {t : K} (h : ∀ p ∈ ps, Good B p.1 ∧ 0 ≤ p.2 ∧ -t ≤ w p.1 ∧ p.2 * w p.1 ≤ p.2 * t) :
    (ps.map fun p => (p.2 - p.1.ls) * (w p.1 - p.1.ws)).sum + (ps.map fun p => p.2 * p.1.ws).sum ≤ ((ps.map Prod.snd).sum + (ps.map fun p => p.1.ls).sum) * t := by
  induction ps with
  | nil => simp
  | cons p ps ih =>
    obtain ⟨g, l0, h1, h2⟩ := h p (by simp)
    have i := ih fun p hp => h p (by simp [hp])
    simp only [List.map_cons, List.sum_cons]
    have := mul_nonneg g.ls (sub_nonneg.2 h1)
    have := g.compl
    nlinarith

/-- After a sweep the potential is at most the impulses times what the sweep moved. -/
theorem sweep_bound (psd : ∀ x, 0 ≤ B x x) {C : K} (hC : 0 ≤ C) (ps : List (Row K V × K)) (x : V) (hx : x = place ps) (h1 : ∀ p ∈ ps, Good B p.1 ∧ 0 ≤ p.2)
    (h2 : ∀ p ∈ ps, ∀ p' ∈ ps, |B p.1.d p'.1.d| ≤ C) :
    pot B (sweep B ps x).2 (sweep B ps x).1 ≤ 2 * C * (((sweep B ps x).2.map Prod.snd).sum + (ps.map fun p => p.1.ls).sum) * travel B ps x := by
  have hp : (sweep B ps x).1 = place (sweep B ps x).2 := by
    have := sweep_place (B := B) ps x
    rw [hx, sub_self, sub_eq_zero] at this
    rw [hx]; exact this
  have hm := sweep_met hC ps x (fun p hp => (h1 p hp).1.pos) h2
  have hg := sweep_good (P := Good B) (B := B) ps x h1
  have hr : ((sweep B ps x).2.map fun p => p.1.ls) = ps.map fun p => p.1.ls := by
    have := congrArg (List.map Row.ls) (sweep_rows (B := B) ps x)
    simpa [List.map_map, Function.comp_def] using this
  set y := (sweep B ps x).1 with hy
  set qs := (sweep B ps x).2 with hqs
  have e : B y y = (qs.map fun p => (p.2 - p.1.ls) * (B p.1.d y + p.1.ws - p.1.ws)).sum := by
    conv_lhs => rw [hp]
    clear_value y qs
    have : ∀ l : List (Row K V × K), B (place l) (place qs) = (l.map fun p => (p.2 - p.1.ls) * (B p.1.d y + p.1.ws - p.1.ws)).sum := by
      intro l
      induction l with
      | nil => simp [place]
      | cons p l ih =>
        simp only [place, List.map_cons, List.sum_cons, map_add, LinearMap.add_apply, map_smul, LinearMap.smul_apply, smul_eq_mul] at ih ⊢
        rw [ih]
        simp only [place] at hp
        rw [← hp, add_sub_cancel_right]
    exact this qs
  have b := sum_bound (B := B) qs (fun r => B r.d y + r.ws) (t := C * travel B ps x) fun p hp => ⟨(hg p hp).1, (hg p hp).2, hm p hp⟩
  rw [← e, hr] at b
  have := psd y
  unfold pot
  nlinarith

/-! ## Many sweeps -/

/-- The state of the sweeps: the impulses and the distance of the velocities. -/
def turn (B : V →ₗ[K] V →ₗ[K] K) (s : V × List (Row K V × K)) : V × List (Row K V × K) := sweep B s.2 s.1

theorem converges [Archimedean K] (sym : ∀ x y, B x y = B y x) (psd : ∀ x, 0 ≤ B x x) (s : V × List (Row K V × K)) (hx : s.1 = place s.2)
    (h : ∀ p ∈ s.2, Good B p.1 ∧ 0 ≤ p.2) : ∀ ε > 0, ∃ n0, ∀ n ≥ n0, B ((turn B)^[n] s).1 ((turn B)^[n] s).1 ≤ ε := by
  -- bounds that hold for all rows
  obtain ⟨C, hC, hCb⟩ : ∃ C : K, 0 ≤ C ∧ ∀ r ∈ s.2.map Prod.fst, ∀ r' ∈ s.2.map Prod.fst, |B r.d r'.d| ≤ C := by
    have : ∀ l : List (V × V), ∃ C : K, 0 ≤ C ∧ ∀ q ∈ l, |B q.1 q.2| ≤ C := by
      intro l
      induction l with
      | nil => exact ⟨0, le_rfl, by simp⟩
      | cons q l ih =>
        obtain ⟨C, c1, c2⟩ := ih
        refine ⟨max C |B q.1 q.2|, le_max_of_le_left c1, fun q' hq' => ?_⟩
        rcases List.mem_cons.1 hq' with rfl | hq'
        · exact le_max_right _ _
        · exact le_max_of_le_left (c2 q' hq')
    obtain ⟨C, c1, c2⟩ := this ((s.2.map Prod.fst).flatMap fun r => (s.2.map Prod.fst).map fun r' => (r.d, r'.d))
    exact ⟨C, c1, fun r hr r' hr' => c2 (r.d, r'.d) (List.mem_flatMap.2 ⟨r, hr, List.mem_map.2 ⟨r', hr', rfl⟩⟩)⟩
  obtain ⟨α, hα, hαb⟩ : ∃ α : K, 0 < α ∧ ∀ r ∈ s.2.map Prod.fst, α ≤ B r.d r.d := by
    have : ∀ l : List (Row K V), (∀ r ∈ l, 0 < B r.d r.d) → ∃ α : K, 0 < α ∧ ∀ r ∈ l, α ≤ B r.d r.d := by
      intro l
      induction l with
      | nil => intro _; exact ⟨1, one_pos, by simp⟩
      | cons q l ih =>
        intro hl
        obtain ⟨C, c1, c2⟩ := ih fun r hr => hl r (by simp [hr])
        refine ⟨min C (B q.d q.d), lt_min c1 (hl q (by simp)), fun q' hq' => ?_⟩
        rcases List.mem_cons.1 hq' with rfl | hq'
        · exact min_le_right _ _
        · exact (min_le_left _ _).trans (c2 q' hq')
    refine this _ fun r hr => ?_
    obtain ⟨p, hp, rfl⟩ := List.mem_map.1 hr
    exact (h p hp).1.pos
  set S := fun n => (turn B)^[n] s with hS
  have hsucc : ∀ n, S (n + 1) = sweep B (S n).2 (S n).1 := fun n => by simp only [hS, Function.iterate_succ_apply', turn]
  have rows : ∀ n, (S n).2.map Prod.fst = s.2.map Prod.fst := by
    intro n
    induction n with
    | zero => rfl
    | succ n ih => rw [hsucc, sweep_rows, ih]
  have good : ∀ n, ∀ p ∈ (S n).2, Good B p.1 ∧ 0 ≤ p.2 := by
    intro n
    induction n with
    | zero => exact h
    | succ n ih => rw [hsucc]; exact sweep_good (P := Good B) _ _ ih
  have plc : ∀ n, (S n).1 = place (S n).2 := by
    intro n
    induction n with
    | zero => exact hx
    | succ n ih =>
      have := sweep_place (B := B) (S n).2 (S n).1
      rw [ih, sub_self, sub_eq_zero, ← ih] at this
      rw [hsucc]; exact this
  set E := fun n => pot B (S n).2 (S n).1 with hEd
  set D := fun n => travel B (S n).2 (S n).1 with hDd
  set m := s.2.length with hm
  have len : ∀ n, (S n).2.length = m := fun n => by
    have := congrArg List.length (rows n); simpa using this
  set L := (s.2.map Prod.snd).sum + (s.2.map fun p => p.1.ls).sum with hL
  have potnn : ∀ n, B (S n).1 (S n).1 ≤ E n := fun n => by
    have : 0 ≤ ((S n).2.map fun p => p.2 * p.1.ws).sum := List.sum_nonneg fun z hz => by
      obtain ⟨p, hp, rfl⟩ := List.mem_map.1 hz
      exact mul_nonneg (good n p hp).2 (good n p hp).1.ws
    simp only [hEd, pot]; linarith
  have loads : ∀ n, ((S n).2.map Prod.snd).sum ≤ (s.2.map Prod.snd).sum + ∑ j ∈ Finset.range n, D j := by
    intro n
    induction n with
    | zero => simp [hS]
    | succ n ih =>
      rw [Finset.sum_range_succ, hsucc]
      have := load_sum (B := B) (S n).2 (S n).1
      simp only [hDd] at ih ⊢
      linarith
  have lssum : ∀ n, ((S n).2.map fun p => p.1.ls) = s.2.map fun p => p.1.ls := fun n => by
    have := congrArg (List.map Row.ls) (rows n)
    simpa [List.map_map, Function.comp_def] using this
  have lsnn : 0 ≤ (s.2.map fun p => p.1.ls).sum := List.sum_nonneg fun z hz => by
    obtain ⟨p, hp, rfl⟩ := List.mem_map.1 hz; exact (h p hp).1.ls
  have lnn : 0 ≤ (s.2.map Prod.snd).sum := List.sum_nonneg fun z hz => by
    obtain ⟨p, hp, rfl⟩ := List.mem_map.1 hz; exact (h p hp).2
  have key : ∀ ε > 0, ∃ n0, ∀ n ≥ n0, E n ≤ ε := by
    refine falls (D := D) (q := α / (m + 1)) (c := 2 * C) (g := L) (by positivity) (by positivity) (by positivity) (fun n => (psd _).trans (potnn n)) (fun n => travel_nonneg _ _) ?_ ?_
    · intro n
      have h1 := sweep_pot sym (S n).2 (S n).1 (fun p hp => ⟨(good n p hp).1.pos, (good n p hp).2⟩)
      have h2 := travel_used hα.le (S n).2 (S n).1 (fun p hp => hαb _ (by rw [← rows n]; exact List.mem_map.2 ⟨p, hp, rfl⟩))
      rw [len n] at h2
      rw [← hsucc] at h1
      have hu : α / (m + 1) * D n ^ 2 ≤ used B (S n).2 (S n).1 := by
        have hm1 : (0 : K) < m + 1 := by positivity
        rw [div_mul_eq_mul_div, div_le_iff₀ hm1]
        have hu0 : 0 ≤ used B (S n).2 (S n).1 := by
          have : ∀ (l : List (Row K V × K)) (y : V), (∀ p ∈ l, 0 < B p.1.d p.1.d) → 0 ≤ used B l y := by
            intro l
            induction l with
            | nil => intro y _; exact le_rfl
            | cons q l ih => intro y hl; exact add_nonneg (mul_nonneg (hl q (by simp)).le (sq_nonneg _)) (ih _ fun p hp => hl p (by simp [hp]))
          exact this _ _ fun p hp => (good n p hp).1.pos
        simp only [hDd]
        linarith
      simp only [hEd]
      linarith
    · intro n
      have h1 := sweep_bound psd hC (S n).2 (S n).1 (plc n) (good n) (fun p hp p' hp' =>
        hCb _ (by rw [← rows n]; exact List.mem_map.2 ⟨p, hp, rfl⟩) _ (by rw [← rows n]; exact List.mem_map.2 ⟨p', hp', rfl⟩))
      rw [← hsucc, lssum n] at h1
      refine h1.trans (mul_le_mul_of_nonneg_right (mul_le_mul_of_nonneg_left ?_ (by positivity)) (travel_nonneg _ _))
      have := loads (n + 1)
      simp only [hL]
      linarith
  intro ε hε
  obtain ⟨n0, h0⟩ := key ε hε
  exact ⟨n0, fun n hn => (potnn n).trans (h0 n hn)⟩

theorem turn_place (s : V × List (Row K V × K)) (hx : s.1 = place s.2) (n : Nat) :
    ((turn B)^[n] s).1 = place ((turn B)^[n] s).2 ∧ ((turn B)^[n] s).2.map Prod.fst = s.2.map Prod.fst := by
  induction n with
  | zero => exact ⟨hx, rfl⟩
  | succ n ih =>
    rw [Function.iterate_succ_apply', turn]
    obtain ⟨i1, i2⟩ := ih
    refine ⟨?_, by rw [sweep_rows, i2]⟩
    have := sweep_place (B := B) ((turn B)^[n] s).2 ((turn B)^[n] s).1
    rwa [i1, sub_self, sub_eq_zero, ← i1] at this

/-- Two solutions have the same velocities. -/
theorem only_one (psd : ∀ x, 0 ≤ B x x) (ps : List (Row K V × K)) (x : V) (hx : x = place ps) (h : ∀ p ∈ ps, Good B p.1 ∧ 0 ≤ p.2)
    (h' : ∀ p ∈ ps, 0 ≤ B p.1.d x + p.1.ws ∧ p.2 * (B p.1.d x + p.1.ws) = 0) : B x x = 0 := by
  have e : ∀ l : List (Row K V × K), B (place l) x = (l.map fun p => (p.2 - p.1.ls) * (B p.1.d x + p.1.ws - p.1.ws)).sum := by
    intro l
    induction l with
    | nil => simp [place]
    | cons p l ih =>
      simp only [place, List.map_cons, List.sum_cons, map_add, LinearMap.add_apply, map_smul, LinearMap.smul_apply, smul_eq_mul] at ih ⊢
      rw [ih, add_sub_cancel_right]
  have b := sum_bound (B := B) ps (fun r => B r.d x + r.ws) (t := 0) fun p hp => ⟨(h p hp).1, (h p hp).2, by simpa using (h' p hp).1, by rw [(h' p hp).2, mul_zero]⟩
  have n : 0 ≤ (ps.map fun p => p.2 * p.1.ws).sum := List.sum_nonneg fun z hz => by
    obtain ⟨p, hp, rfl⟩ := List.mem_map.1 hz
    exact mul_nonneg (h p hp).2 (h p hp).1.ws
  rw [← e ps, ← hx, mul_zero] at b
  exact le_antisymm (by linarith) (psd x)

/-- A sweep that starts at the velocities `0` changes nothing exactly if all constraints are met. -/
theorem sweep_still (ps : List (Row K V × K)) (h : ∀ p ∈ ps, 0 < B p.1.d p.1.d ∧ 0 ≤ p.2) :
    (sweep B ps 0).2 = ps ↔ ∀ p ∈ ps, 0 ≤ p.1.ws ∧ (0 < p.2 → p.1.ws = 0) := by
  have one : ∀ p : Row K V × K, 0 < B p.1.d p.1.d → 0 ≤ p.2 → (hit B p.1 0 p.2 = p.2 ↔ 0 ≤ p.1.ws ∧ (0 < p.2 → p.1.ws = 0)) := by
    intro p hp hl
    constructor
    · intro e
      obtain ⟨m1, m2⟩ := hit_met hp (0 : V) p.2
      rw [e, sub_self, zero_smul, add_zero, map_zero, zero_add] at m1 m2
      refine ⟨m1, fun hl' => ?_⟩
      rcases mul_eq_zero.1 m2 with h0 | h0
      · exact absurd h0 hl'.ne'
      · exact h0
    · rintro ⟨w1, w2⟩
      rw [hit, map_zero, zero_add]
      rcases hl.eq_or_lt with h0 | h0
      · rw [← h0, zero_sub]
        exact max_eq_right (neg_nonpos.2 (div_nonneg w1 hp.le))
      · rw [w2 h0, zero_div, sub_zero]
        exact max_eq_left hl
  induction ps with
  | nil => simp [sweep]
  | cons p ps ih =>
    obtain ⟨h1, h2⟩ := h p (by simp)
    have i := ih fun p hp => h p (by simp [hp])
    simp only [sweep, List.cons.injEq, List.mem_cons, forall_eq_or_imp]
    constructor
    · rintro ⟨e1, e2⟩
      have e : hit B p.1 0 p.2 = p.2 := congrArg Prod.snd e1
      rw [e, sub_self, zero_smul, add_zero] at e2
      exact ⟨(one p h1 h2).1 e, i.1 e2⟩
    · rintro ⟨e1, e2⟩
      have e := (one p h1 h2).2 e1
      rw [e, sub_self, zero_smul, add_zero]
      exact ⟨rfl, i.2 e2⟩

theorem sweep_still_place (ps : List (Row K V × K)) (h : (sweep B ps 0).2 = ps) : (sweep B ps 0).1 = 0 := by
  have := sweep_place (B := B) ps 0
  rw [h, sub_left_inj] at this
  exact this

end Descent
end Cm
