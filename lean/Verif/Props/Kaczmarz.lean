import Mathlib.LinearAlgebra.BilinearMap
import Mathlib.LinearAlgebra.Span.Basic
import Mathlib.Algebra.Order.Archimedean.Basic
import Mathlib.Algebra.BigOperators.Ring.List
import Mathlib.Algebra.Order.BigOperators.Group.List
import Mathlib.Tactic.Linarith
import Mathlib.Tactic.FieldSimp
import Mathlib.Tactic.Module
import Mathlib.Tactic.Positivity
/-! # Going round equations one at a time -/
set_option linter.unusedSectionVars false
set_option linter.unusedSimpArgs false
set_option linter.unusedVariables false

namespace Cm
namespace Tie
variable {K : Type} [Field K] [LinearOrder K] [IsStrictOrderedRing K] {V : Type} [AddCommGroup V] [Module K V]

/-- Everything the directions `ds` make up. -/
def Made (ds : List V) : Submodule K V := Submodule.span K {d | d ∈ ds}

variable (B : V →ₗ[K] V →ₗ[K] K)

/-- The equations with the directions `ds` are met, by moving in these directions. -/
def Step (ds : List V) (x x' : V) : Prop := x' - x ∈ Made (K := K) ds ∧ ∀ d ∈ ds, B d x' = 0

/-- One equation after the other. -/
def Pass : List (List V) → V → V → Prop
  | [], x, y => y = x
  | ds :: l, x, y => ∃ x1, Step B ds x x1 ∧ Pass l x1 y

variable {B} (sym : ∀ x y, B x y = B y x) (psd : ∀ x, 0 ≤ B x x)
include sym psd

theorem cauchy (d z : V) : (B d z) ^ 2 ≤ B d d * B z z := by
  have h := psd (B d d • z - B d z • d)
  simp only [map_sub, map_smul, LinearMap.sub_apply, LinearMap.smul_apply, smul_eq_mul] at h
  rw [sym z d] at h
  rcases (psd d).eq_or_lt with h0 | h0
  · have h1 := psd (z + (-(B z z + 1) / 2 / B d z) • d)
    simp only [map_add, map_smul, LinearMap.add_apply, LinearMap.smul_apply, smul_eq_mul, ← h0] at h1
    rw [sym z d] at h1
    rcases eq_or_ne (B d z) 0 with h2 | h2
    · rw [h2, ← h0]; simp
    · exfalso
      have e : -(B z z + 1) / 2 / B d z * B d z = -(B z z + 1) / 2 := by field_simp
      linarith
  · have : 0 ≤ B d d * (B d d * B z z - B d z ^ 2) := by linarith
    have := nonneg_of_mul_nonneg_right this h0
    linarith

theorem null {d : V} (h : B d d = 0) (z : V) : B d z = 0 := by
  have := cauchy sym psd d z
  rw [h, zero_mul] at this
  exact pow_eq_zero_iff (two_ne_zero) |>.1 (le_antisymm this (sq_nonneg _))

omit sym psd in
theorem made_zero {ds : List V} {y p : V} (h : ∀ d ∈ ds, B d y = 0) (hp : p ∈ Made (K := K) ds) : B p y = 0 := by
  induction hp using Submodule.span_induction with
  | mem x hx => exact h x hx
  | zero => simp
  | add a b _ _ ha hb => simp [ha, hb]
  | smul c a _ ha => simp [ha]

theorem step_energy {ds : List V} {x x' : V} (h : Step B ds x x') : B x x = B x' x' + B (x' - x) (x' - x) := by
  have h0 := made_zero h.2 h.1
  simp only [map_sub, LinearMap.sub_apply] at h0 ⊢
  rw [sym x' x] at *
  linarith

theorem pass_falls : ∀ (l : List (List V)) (x y : V), Pass B l x y → B y y ≤ B x x
  | [], x, y, h => by rw [show y = x from h]
  | ds :: l, x, y, ⟨x1, h1, h2⟩ => by
    have := pass_falls l x1 y h2
    have e := step_energy sym psd h1
    have := psd (x1 - x)
    linarith

/-- What a pass changes in one direction. -/
theorem pass_change (d : V) : ∀ (l : List (List V)) (x y : V), Pass B l x y → (B d (y - x)) ^ 2 ≤ 2 ^ l.length * B d d * (B x x - B y y)
  | [], x, y, h => by rw [show y = x from h]; simp
  | ds :: l, x, y, ⟨x1, h1, h2⟩ => by
    have i := pass_change d l x1 y h2
    have e := step_energy sym psd h1
    have c := cauchy sym psd d (x1 - x)
    have f := pass_falls sym psd l x1 y h2
    have hs : B d (y - x) = B d (x1 - x) + B d (y - x1) := by rw [← map_add]; congr 1; abel
    have p1 : (1 : K) ≤ 2 ^ l.length := one_le_pow₀ (by norm_num)
    have q := mul_nonneg (psd d) (psd (x1 - x))
    have q2 : B d d * B (x1 - x) (x1 - x) ≤ 2 ^ l.length * (B d d * B (x1 - x) (x1 - x)) := le_mul_of_one_le_left q p1
    have e2 : B x x - B y y = B (x1 - x) (x1 - x) + (B x1 x1 - B y y) := by linarith
    rw [hs, List.length_cons, pow_succ (2 : K) l.length, e2]
    nlinarith [sq_nonneg (B d (x1 - x) - B d (y - x1))]

/-- After a pass every equation is met up to what the pass changed. -/
theorem pass_met : ∀ (l : List (List V)) (x y : V), Pass B l x y → ∀ ds ∈ l, ∀ d ∈ ds, (B d y) ^ 2 ≤ 2 ^ l.length * B d d * (B x x - B y y)
  | [], _, _, _ => by simp
  | ds :: l, x, y, ⟨x1, h1, h2⟩ => by
    intro es hes d hd
    have e := step_energy sym psd h1
    have n1 := psd (x1 - x)
    have f := pass_falls sym psd l x1 y h2
    have p1 : (0 : K) < 2 ^ l.length := by positivity
    have key : (B d y) ^ 2 ≤ 2 ^ l.length * B d d * (B x1 x1 - B y y) := by
      rcases List.mem_cons.1 hes with rfl | hes
      · have := pass_change sym psd d l x1 y h2
        rwa [map_sub, h1.2 d hd, sub_zero] at this
      · exact pass_met l x1 y h2 es hes d hd
    refine key.trans ?_
    rw [List.length_cons, pow_succ]
    have q := mul_nonneg p1.le (psd d)
    nlinarith [mul_nonneg q n1, mul_nonneg q (sub_nonneg.2 f)]

omit sym psd in
theorem bounded (l : List V) : ∃ C : K, 0 < C ∧ ∀ d ∈ l, B d d ≤ C := by
  induction l with
  | nil => exact ⟨1, one_pos, by simp⟩
  | cons d l ih =>
    obtain ⟨C, c1, c2⟩ := ih
    refine ⟨max C (B d d), lt_max_of_lt_left c1, fun e he => ?_⟩
    rcases List.mem_cons.1 he with rfl | he
    · exact le_max_right _ _
    · exact (c2 e he).trans (le_max_left _ _)

/-! ## The velocities themselves -/

omit sym psd in
theorem made_cons {d : V} {ds : List V} {x : V} (h : x ∈ Made (K := K) (d :: ds)) : ∃ (a : K) (y : V), y ∈ Made (K := K) ds ∧ x = a • d + y := by
  have : ({e | e ∈ d :: ds} : Set V) = insert d {e | e ∈ ds} := by ext e; simp
  rw [Made, this, Submodule.mem_span_insert] at h
  obtain ⟨a, y, hy, e⟩ := h
  exact ⟨a, y, hy, e⟩

omit sym psd in
theorem made_sub {ds es : List V} (h : ∀ d ∈ ds, d ∈ es) : Made (K := K) ds ≤ Made es := Submodule.span_mono h

/-- The part of a velocity that the directions make up. -/
theorem part (v : V) : ∀ ds : List V, ∃ p ∈ Made (K := K) ds, ∀ d ∈ ds, B d (v - p) = 0 := by
  intro ds
  induction ds generalizing v with
  | nil => exact ⟨0, Submodule.zero_mem _, by simp⟩
  | cons d ds ih =>
    obtain ⟨p, p1, p2⟩ := ih v
    obtain ⟨r, r1, r2⟩ := ih d
    have sub : Made (K := K) ds ≤ Made (d :: ds) := made_sub fun e he => by simp [he]
    have dm : d ∈ Made (K := K) (d :: ds) := Submodule.subset_span (by simp)
    have hq : ∀ e ∈ ds, B e (d - r) = 0 := r2
    rcases eq_or_ne (B (d - r) (d - r)) 0 with h0 | h0
    · refine ⟨p, sub p1, fun e he => ?_⟩
      rcases List.mem_cons.1 he with rfl | he
      · have e1 := null sym psd h0 (v - p)
        have e2 := made_zero p2 r1
        rw [map_sub B, LinearMap.sub_apply] at e1
        linarith
      · exact p2 e he
    · refine ⟨p + (B (d - r) (v - p) / B (d - r) (d - r)) • (d - r), Submodule.add_mem _ (sub p1) (Submodule.smul_mem _ _ (Submodule.sub_mem _ dm (sub r1))), fun e he => ?_⟩
      have hv : v - (p + (B (d - r) (v - p) / B (d - r) (d - r)) • (d - r)) = (v - p) - (B (d - r) (v - p) / B (d - r) (d - r)) • (d - r) := by abel
      rw [hv]
      generalize hc : B (d - r) (v - p) / B (d - r) (d - r) = c
      have ec : c * B (d - r) (d - r) = B (d - r) (v - p) := by rw [← hc]; field_simp
      rw [map_sub (B e), map_smul, smul_eq_mul]
      rcases List.mem_cons.1 he with rfl | he
      · have e2 := made_zero p2 r1
        have e3 := made_zero hq r1
        have e4 : B (e - r) (v - p) = B e (v - p) - B r (v - p) := by rw [map_sub B, LinearMap.sub_apply]
        have e5 : B (e - r) (e - r) = B e (e - r) - B r (e - r) := by rw [map_sub B, LinearMap.sub_apply]
        rw [e4, e5, e2, e3] at ec
        linarith
      · rw [p2 e he, hq e he]; simp

omit sym psd in
theorem sum_sq_nonneg (ds : List V) (x : V) : 0 ≤ (ds.map fun d => (B d x) ^ 2).sum :=
  List.sum_nonneg fun a ha => by obtain ⟨d, _, rfl⟩ := List.mem_map.1 ha; positivity

omit sym psd in
/-- What is made of the directions is seen through them. -/
theorem made_seen {ds : List V} {p : V} (hp : p ∈ Made (K := K) ds) : ∃ C : K, 0 ≤ C ∧ ∀ x, (B p x) ^ 2 ≤ C * (ds.map fun d => (B d x) ^ 2).sum := by
  induction hp using Submodule.span_induction with
  | mem p hp =>
    refine ⟨1, zero_le_one, fun x => ?_⟩
    rw [one_mul]
    exact List.single_le_sum (fun a ha => by obtain ⟨d, _, rfl⟩ := List.mem_map.1 ha; positivity) _ (List.mem_map.2 ⟨p, hp, rfl⟩)
  | zero => exact ⟨0, le_rfl, fun x => by simp⟩
  | add a b _ _ ha hb =>
    obtain ⟨C, c0, hC⟩ := ha
    obtain ⟨D, d0, hD⟩ := hb
    refine ⟨2 * C + 2 * D, by positivity, fun x => ?_⟩
    rw [map_add, LinearMap.add_apply]
    nlinarith [hC x, hD x, sq_nonneg (B a x - B b x)]
  | smul c a _ ha =>
    obtain ⟨C, c0, hC⟩ := ha
    refine ⟨c ^ 2 * C, by positivity, fun x => ?_⟩
    rw [map_smul, LinearMap.smul_apply, smul_eq_mul, mul_pow, mul_assoc]
    exact mul_le_mul_of_nonneg_left (hC x) (sq_nonneg c)

/-- A velocity made of the directions is small if it is small along each of them. -/
theorem gram : ∀ ds : List V, ∃ C : K, 0 ≤ C ∧ ∀ x ∈ Made (K := K) ds, B x x ≤ C * (ds.map fun d => (B d x) ^ 2).sum := by
  intro ds
  induction ds with
  | nil =>
    refine ⟨0, le_rfl, fun x hx => ?_⟩
    have : x = 0 := by simpa [Made] using hx
    simp [this]
  | cons d ds ih =>
    obtain ⟨C, c0, hC⟩ := ih
    obtain ⟨r, r1, r2⟩ := part sym psd d ds
    obtain ⟨D, d0, hD⟩ := made_seen (B := B) r1
    set q := d - r with hq
    have split : ∀ x ∈ Made (K := K) (d :: ds), ∃ (a : K) (y : V), y ∈ Made (K := K) ds ∧ x = a • q + y := by
      intro x hx
      obtain ⟨a, y, hy, e⟩ := made_cons hx
      exact ⟨a, y + a • r, Submodule.add_mem _ hy (Submodule.smul_mem _ _ r1), by rw [e, hq]; module⟩
    have qy : ∀ y ∈ Made (K := K) ds, B y q = 0 := fun y hy => made_zero r2 hy
    have energy : ∀ (a : K) (y : V), y ∈ Made (K := K) ds → B (a • q + y) (a • q + y) = a ^ 2 * B q q + B y y := by
      intro a y hy
      simp only [map_add, map_smul, LinearMap.add_apply, LinearMap.smul_apply, smul_eq_mul]
      rw [sym q y, qy y hy]
      ring
    have along : ∀ (a : K) (y : V), (ds.map fun e => (B e y) ^ 2).sum = (ds.map fun e => (B e (a • q + y)) ^ 2).sum := by
      intro a y
      congr 1
      refine List.map_congr_left fun e he => ?_
      rw [map_add, map_smul, r2 e he]; simp
    rcases (psd q).eq_or_lt with h0 | h0
    · refine ⟨C, c0, fun x hx => ?_⟩
      obtain ⟨a, y, hy, rfl⟩ := split x hx
      rw [energy a y hy, ← h0, mul_zero, zero_add]
      refine (hC y hy).trans (mul_le_mul_of_nonneg_left ?_ c0)
      rw [along a y, List.map_cons, List.sum_cons]
      linarith [sq_nonneg (B d (a • q + y))]
    · refine ⟨C + (2 + 2 * D) / B q q, by positivity, fun x hx => ?_⟩
      obtain ⟨a, y, hy, rfl⟩ := split x hx
      have hy2 := hC y hy
      rw [along a y] at hy2
      have hx2 := hD (a • q + y)
      have bq : B q (a • q + y) = a * B q q := by
        rw [map_add, map_smul, smul_eq_mul, sym q y, qy y hy, add_zero]
      rw [energy a y hy, List.map_cons, List.sum_cons]
      have bd : B d (a • q + y) = a * B q q + B r (a • q + y) := by
        rw [← bq, ← LinearMap.add_apply, ← map_add, hq, sub_add_cancel]
      have s0 := sum_sq_nonneg (B := B) ds (a • q + y)
      set S := (ds.map fun e => (B e (a • q + y)) ^ 2).sum
      set t := B d (a • q + y)
      set w := B r (a • q + y)
      have h1 : a ^ 2 * B q q * B q q ≤ 2 * t ^ 2 + 2 * D * S := by
        have : a * B q q = t - w := by linarith
        have e : a ^ 2 * B q q * B q q = (t - w) ^ 2 := by rw [← this]; ring
        rw [e]
        nlinarith [sq_nonneg (t + w)]
      have h2 : a ^ 2 * B q q ≤ (2 * t ^ 2 + 2 * D * S) / B q q := by rw [le_div_iff₀ h0]; exact h1
      have h3 : (2 * t ^ 2 + 2 * D * S) / B q q ≤ (2 + 2 * D) / B q q * (t ^ 2 + S) := by
        rw [div_mul_eq_mul_div]
        refine div_le_div_of_nonneg_right ?_ h0.le
        nlinarith [mul_nonneg d0 (sq_nonneg t)]
      have h4 := mul_nonneg c0 (sq_nonneg t)
      nlinarith

omit sym psd in
theorem pass_made : ∀ (l : List (List V)) (x y : V), Pass B l x y → y - x ∈ Made (K := K) l.flatten
  | [], x, y, h => by rw [show y = x from h, sub_self]; exact Submodule.zero_mem _
  | ds :: l, x, y, ⟨x1, h1, h2⟩ => by
    have i := pass_made l x1 y h2
    have : y - x = (x1 - x) + (y - x1) := by abel
    rw [this]
    exact Submodule.add_mem _ (made_sub (fun e he => by simp [he]) h1.1) (made_sub (fun e he => by
      rw [List.flatten_cons, List.mem_append]; exact Or.inr he) i)

omit sym psd in
theorem sum_le {ds : List V} {x : V} {ε : K} (h : ∀ d ∈ ds, (B d x) ^ 2 ≤ ε) : (ds.map fun d => (B d x) ^ 2).sum ≤ ds.length * ε := by
  induction ds with
  | nil => simp
  | cons d ds ih =>
    have := ih fun e he => h e (by simp [he])
    have := h d (by simp)
    rw [List.map_cons, List.sum_cons, List.length_cons]
    push_cast
    linarith

/-- A pass takes away at least a fixed part of what is made of the directions. -/
theorem shrinks (l : List (List V)) : ∃ ρ : K, 0 ≤ ρ ∧ ρ < 1 ∧ ∀ x y, x ∈ Made (K := K) l.flatten → Pass B l x y → B y y ≤ ρ * B x x := by
  obtain ⟨C, c0, hC⟩ := gram sym psd l.flatten
  obtain ⟨D, d0, hD⟩ := bounded (B := B) l.flatten
  set F : K := C * (l.flatten.length * (2 ^ l.length * D)) with hF
  have F0 : 0 ≤ F := by positivity
  refine ⟨F / (1 + F), by positivity, by rw [div_lt_one (by positivity)]; linarith, fun x y hx h => ?_⟩
  have hy : y ∈ Made (K := K) l.flatten := by
    have := Submodule.add_mem _ hx (pass_made l _ _ h)
    rwa [add_sub_cancel] at this
  have f := pass_falls sym psd l x y h
  have s1 : ∀ d ∈ l.flatten, (B d y) ^ 2 ≤ 2 ^ l.length * D * (B x x - B y y) := by
    intro d hd
    obtain ⟨ds, h1, h2⟩ := List.mem_flatten.1 hd
    refine (pass_met sym psd l x y h ds h1 d h2).trans ?_
    exact mul_le_mul_of_nonneg_right (mul_le_mul_of_nonneg_left (hD d hd) (by positivity)) (by linarith)
  have s2 := (hC y hy).trans (mul_le_mul_of_nonneg_left (sum_le s1) c0)
  have e : C * (l.flatten.length * (2 ^ l.length * D * (B x x - B y y))) = F * (B x x - B y y) := by rw [hF]; ring
  rw [e] at s2
  rw [div_mul_eq_mul_div, le_div_iff₀ (by positivity)]
  linarith

end Tie
end Cm
