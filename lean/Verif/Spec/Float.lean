import Verif.Spec.Rounded
import Mathlib.Data.Int.Log
import Mathlib.Tactic.Linarith
import Mathlib.Tactic.FieldSimp
import Mathlib.Data.Rat.Floor
/-! # Binary floating point numbers are an example of rounded arithmetic

The numbers of IEEE 754 with `p + 1` binary digits and the least exponent `lo`, subnormal numbers included, without a greatest exponent: overflow is left out. -/
namespace Cm
namespace Spec

/-- Rounding to integers: monotone, and integers stay. -/
structure ToInt where
  ρ : ℚ → ℤ
  mono : ∀ x y, x ≤ y → ρ x ≤ ρ y
  fix : ∀ n : ℤ, ρ n = n

/-- To the nearest integer, and to the even one if both are as near. -/
def nearestEven : ToInt where
  ρ x := if x - ⌊x⌋ < 1/2 then ⌊x⌋ else if 1/2 < x - ⌊x⌋ then ⌊x⌋ + 1 else if ⌊x⌋ % 2 = 0 then ⌊x⌋ else ⌊x⌋ + 1
  mono x y h := by
    have h1 := Int.floor_mono h
    rcases h1.lt_or_eq with h2 | h2
    · have : ⌊x⌋ + 1 ≤ ⌊y⌋ := h2
      split_ifs <;> omega
    · rw [h2]
      split_ifs <;> first | omega | (exfalso; linarith)
  fix n := by simp

/-- Towards zero (of numbers that are not negative). -/
def towardsZero : ToInt := ⟨fun x => ⌊x⌋, fun _ _ h => Int.floor_mono h, fun n => Int.floor_intCast n⟩

namespace Fp
variable (I : ToInt) (p : ℕ) (lo : ℤ)

/-- The exponent of the last digit of a number. -/
def last (x : ℚ) : ℤ := max (Int.log 2 x - p) lo

/-- Rounding of numbers that are not negative. -/
def up (x : ℚ) : ℚ := I.ρ (x / 2 ^ last p lo x) * 2 ^ last p lo x

theorem two_pos (k : ℤ) : (0:ℚ) < 2 ^ k := zpow_pos (by norm_num) k

theorem log_le {x : ℚ} (h : 0 < x) : (2:ℚ) ^ Int.log 2 x ≤ x := by
  have := Int.zpow_log_le_self (R := ℚ) (b := 2) (by norm_num) h
  exact_mod_cast this
theorem lt_log (x : ℚ) : x < (2:ℚ) ^ (Int.log 2 x + 1) := by
  have := Int.lt_zpow_succ_log_self (R := ℚ) (b := 2) (by norm_num) x
  exact_mod_cast this

theorem whole {k l : ℤ} (h : k ≤ l) : ∃ n : ℤ, (2:ℚ) ^ l / 2 ^ k = n ∧ (2:ℚ) ^ l = n * 2 ^ k := by
  obtain ⟨d, hd⟩ := Int.eq_ofNat_of_zero_le (sub_nonneg.2 h)
  refine ⟨2 ^ d, ?_, ?_⟩
  · rw [← zpow_sub₀ (by norm_num), hd]; push_cast; exact zpow_natCast _ _
  · push_cast
    rw [← zpow_natCast, ← zpow_add₀ (by norm_num)]
    congr 1
    omega

/-- What is at most a power of two stays so. -/
theorem up_le {x : ℚ} {l : ℤ} (hl : last p lo x ≤ l) (h : x ≤ 2 ^ l) : up I p lo x ≤ 2 ^ l := by
  obtain ⟨n, h1, h2⟩ := whole hl
  unfold up
  have : I.ρ (x / 2 ^ last p lo x) ≤ n := by
    rw [← I.fix n]
    apply I.mono
    rw [← h1]
    exact div_le_div_of_nonneg_right h (two_pos _).le
  rw [h2]
  exact mul_le_mul_of_nonneg_right (by exact_mod_cast this) (two_pos _).le

theorem le_up {x : ℚ} {l : ℤ} (hl : last p lo x ≤ l) (h : 2 ^ l ≤ x) : 2 ^ l ≤ up I p lo x := by
  obtain ⟨n, h1, h2⟩ := whole hl
  unfold up
  have : n ≤ I.ρ (x / 2 ^ last p lo x) := by
    rw [← I.fix n]
    apply I.mono
    rw [← h1]
    exact div_le_div_of_nonneg_right h (two_pos _).le
  rw [h2]
  exact mul_le_mul_of_nonneg_right (by exact_mod_cast this) (two_pos _).le

theorem up_nonneg {x : ℚ} (h : 0 ≤ x) : 0 ≤ up I p lo x := by
  unfold up
  refine mul_nonneg ?_ (two_pos _).le
  have := I.mono 0 (x / 2 ^ last p lo x) (div_nonneg h (two_pos _).le)
  have e := I.fix 0
  rw [Int.cast_zero] at e
  rw [e] at this
  exact_mod_cast this

theorem up_mono {x y : ℚ} (hx : 0 < x) (h : x ≤ y) : up I p lo x ≤ up I p lo y := by
  have hy := hx.trans_le h
  have hlog : Int.log 2 x ≤ Int.log 2 y := Int.log_mono_right hx h
  rcases (show last p lo x ≤ last p lo y by unfold last; omega).eq_or_lt with e | e
  · unfold up
    rw [e]
    refine mul_le_mul_of_nonneg_right ?_ (two_pos _).le
    exact_mod_cast I.mono _ _ (div_le_div_of_nonneg_right h (two_pos _).le)
  · have h1 : last p lo y = Int.log 2 y - p ∧ Int.log 2 x + 1 ≤ Int.log 2 y := by unfold last at *; omega
    have a : up I p lo x ≤ 2 ^ Int.log 2 y := by
      refine up_le I p lo (by omega) ?_
      exact (lt_log x).le.trans (zpow_le_zpow_right₀ (by norm_num) h1.2)
    exact a.trans (le_up I p lo (by omega) (log_le hy))

theorem up_whole {x : ℚ} (n : ℤ) (h : x = n * 2 ^ last p lo x) : up I p lo x = x := by
  unfold up
  have : x / 2 ^ last p lo x = n := by rw [div_eq_iff (two_pos _).ne']; exact h
  rw [this, I.fix]; exact h.symm

theorem up_idem {x : ℚ} (hx : 0 < x) : up I p lo (up I p lo x) = up I p lo x := by
  generalize hz : up I p lo x = z
  have hz0 : 0 ≤ z := hz ▸ up_nonneg I p lo hx.le
  have hm : z = I.ρ (x / 2 ^ last p lo x) * 2 ^ last p lo x := hz.symm
  rcases hz0.eq_or_lt with e | e
  · exact up_whole I p lo 0 (by rw [← e]; simp)
  by_cases hk : last p lo z ≤ last p lo x
  · obtain ⟨n, -, h2⟩ := whole hk
    refine up_whole I p lo (I.ρ (x / 2 ^ last p lo x) * n) ?_
    rw [Int.cast_mul, mul_assoc, ← h2]; exact hm
  · rw [not_le] at hk
    have h1 : last p lo z = Int.log 2 z - p := by unfold last at *; omega
    have h2 : Int.log 2 x < Int.log 2 z := by unfold last at *; omega
    by_cases h3 : last p lo x ≤ Int.log 2 x + 1
    · have h4 : z ≤ 2 ^ (Int.log 2 x + 1) := by rw [← hz]; exact up_le I p lo h3 (lt_log x).le
      have h5 := log_le e
      have h6 : (2:ℚ) ^ (Int.log 2 x + 1) ≤ 2 ^ Int.log 2 z := zpow_le_zpow_right₀ (by norm_num) h2
      have h7 : z = 2 ^ Int.log 2 z := le_antisymm (h4.trans h6) h5
      obtain ⟨n, -, h8⟩ := whole (show last p lo z ≤ Int.log 2 z by omega)
      exact up_whole I p lo n (h7.trans h8)
    · exfalso
      rw [not_le] at h3
      have h4 : z ≤ 2 ^ last p lo x := by
        rw [← hz]
        exact up_le I p lo le_rfl ((lt_log x).le.trans (zpow_le_zpow_right₀ (by norm_num) h3.le))
      have h5 : (2:ℚ) ^ Int.log 2 z ≤ 2 ^ last p lo x := (log_le e).trans h4
      have h6 := (zpow_le_zpow_iff_right₀ (by norm_num : (1:ℚ) < 2)).1 h5
      omega

theorem up_zero : up I p lo 0 = 0 := up_whole I p lo 0 (by simp)

/-- Rounding of all numbers. -/
def round (x : ℚ) : ℚ := if 0 ≤ x then up I p lo x else -up I p lo (-x)

theorem round_neg (x : ℚ) : round I p lo (-x) = -round I p lo x := by
  unfold round
  rcases lt_trichotomy x 0 with h | rfl | h
  · rw [if_pos (by linarith), if_neg (by linarith), neg_neg]
  · simp [up_zero]
  · rw [if_neg (by linarith), if_pos (by linarith), neg_neg]

theorem up_mono' {x y : ℚ} (hx : 0 ≤ x) (h : x ≤ y) : up I p lo x ≤ up I p lo y := by
  rcases hx.eq_or_lt with e | e
  · rw [← e, up_zero]; exact up_nonneg I p lo (hx.trans h)
  · exact up_mono I p lo e h

/-- The floating point numbers with `p + 1` binary digits and the least exponent `lo`. -/
def format (hlo : lo ≤ 0) : Rounding ℚ where
  r := round I p lo
  mono x y h := by
    unfold round
    split_ifs with h1 h2 h2
    · exact up_mono' I p lo h1 h
    · linarith
    · have := up_nonneg I p lo h2
      have := up_nonneg I p lo (show 0 ≤ -x by linarith)
      linarith
    · have := up_mono' I p lo (show 0 ≤ -y by linarith) (show -y ≤ -x by linarith)
      linarith
  idem x := by
    have pos : ∀ x : ℚ, 0 ≤ x → round I p lo (round I p lo x) = round I p lo x := by
      intro x hx
      have e : round I p lo x = up I p lo x := if_pos hx
      rw [e]
      unfold round
      rw [if_pos (up_nonneg I p lo hx)]
      rcases hx.eq_or_lt with h | h
      · rw [← h, up_zero, up_zero]
      · exact up_idem I p lo h
    rcases le_total 0 x with h | h
    · exact pos x h
    · have := pos (-x) (by linarith)
      rw [round_neg, round_neg] at this
      linarith
  odd x := round_neg I p lo x
  one := by
    unfold round
    rw [if_pos (by norm_num)]
    have : Int.log 2 (1:ℚ) = 0 := Int.log_one_right 2
    obtain ⟨n, -, h⟩ := whole (k := last p lo 1) (l := 0) (by unfold last; rw [this]; omega)
    exact up_whole I p lo n (by rw [zpow_zero] at h; exact h)

end Fp

/-- `float64` of Go: IEEE 754 binary64, rounded to nearest even, without overflow. -/
def binary64 : Rounding ℚ := Fp.format nearestEven 52 (-1074) (by norm_num)

/-- `float64` as a type of the models. -/
abbrev F64 : Type := binary64.Fl

/-- The number one tenth is stored as. -/
example : binary64.r (1/10) = 3602879701896397/36028797018963968 := by decide +kernel
/-- As in any programming language, `0.1 + 0.2` is not `0.3`. -/
example : binary64.rnd (1/10) + binary64.rnd (2/10) ≠ binary64.rnd (3/10) := by decide +kernel
/-- Addition is not associative. -/
example : (binary64.rnd (1/10) + binary64.rnd (2/10)) + binary64.rnd (3/10) ≠ binary64.rnd (1/10) + (binary64.rnd (2/10) + binary64.rnd (3/10)) := by decide +kernel
/-- The least positive number, and half of it. -/
example : binary64.r (2 ^ (-1074 : ℤ)) = 2 ^ (-1074 : ℤ) ∧ binary64.r (2 ^ (-1075 : ℤ)) = 0 := by decide +kernel

end Spec
end Cm
