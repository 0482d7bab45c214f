import Verif.Props.Ratchet
import Verif.Props.Rounding
/-! # C139: what rounding does to the teeth of a ratchet

In numbers of 64 bits the tooth `z` of a ratchet lies at the rounded product of `z` and the distance of the teeth, and the number of the tooth below an angle is the whole part of a rounded
quotient. The two do not always fit: a ratchet whose bodies stand right on its tooth may take the tooth below it. -/
set_option linter.unusedSectionVars false
set_option linter.unusedSimpArgs false
set_option linter.unusedVariables false

namespace Cm
open Spec

namespace Spec
/-- Where the tooth `z` lies, as a number of 64 bits. -/
def toothAt (r : F64) (z : ℤ) : F64 := binary64.rnd z * r
/-- `math.Floor`: the whole part, which fits. -/
def WholePart (M : Mth F64) : Prop := ∀ x : F64, M.floor x = binary64.rnd (⌊x.1⌋ : ℤ)
end Spec

/-! ## Rounding -/

theorem two_zpow_nat (k : ℕ) : (2:ℚ) ^ (k:ℤ) = ((2 ^ k : ℕ) : ℚ) := by rw [zpow_natCast]; push_cast; rfl

theorem round_nat {n : ℕ} (h : n < 2 ^ 53) : binary64.r (n : ℚ) = n := by
  rcases Nat.eq_zero_or_pos n with rfl | hn
  · simpa using binary64.zero
  have hq : (0:ℚ) < n := by exact_mod_cast hn
  show Fp.round nearestEven 52 (-1074) (n : ℚ) = n
  unfold Fp.round
  rw [if_pos hq.le]
  have h1 := Fp.log_le hq
  have h2 : Int.log 2 (n : ℚ) ≤ 52 := by
    by_contra hc
    have h3 : (2:ℚ) ^ (53:ℤ) ≤ 2 ^ Int.log 2 (n : ℚ) := zpow_le_zpow_right₀ (by norm_num) (by omega)
    have h4 : (n : ℚ) < ((2 ^ 53 : ℕ) : ℚ) := by exact_mod_cast h
    rw [← two_zpow_nat 53] at h4
    exact absurd (h3.trans h1) (by simpa using h4)
  obtain ⟨m, -, h3⟩ := Fp.whole (k := Fp.last 52 (-1074) (n : ℚ)) (l := 0) (by unfold Fp.last; push_cast; omega)
  refine Fp.up_whole nearestEven 52 (-1074) ((n : ℤ) * m) ?_
  rw [Int.cast_mul, mul_assoc, ← h3, zpow_zero, mul_one]; rfl

theorem round_int {z : ℤ} (h : |z| < 2 ^ 53) : binary64.r (z : ℚ) = z := by
  obtain ⟨n, rfl | rfl⟩ := z.eq_nat_or_neg
  · rw [Int.cast_natCast]
    refine round_nat ?_
    rw [abs_of_nonneg (by positivity)] at h
    exact_mod_cast h
  · rw [Int.cast_neg, binary64.odd, Int.cast_natCast, round_nat]
    rw [abs_neg, abs_of_nonneg (by positivity)] at h
    exact_mod_cast h

theorem nearest_ge (x : ℚ) : x - 1/2 ≤ (nearestEven.ρ x : ℚ) := by
  show x - 1/2 ≤ ((if x - ⌊x⌋ < 1/2 then ⌊x⌋ else if 1/2 < x - ⌊x⌋ then ⌊x⌋ + 1 else if ⌊x⌋ % 2 = 0 then ⌊x⌋ else ⌊x⌋ + 1 : ℤ) : ℚ)
  have := Int.lt_floor_add_one x
  split_ifs <;> push_cast <;> linarith

/-- A number that is not tiny loses at most the part `2^-53` of itself. -/
theorem round_ge {x : ℚ} (h : (2:ℚ) ^ (-1022 : ℤ) ≤ x) : x * (1 - 2 ^ (-53 : ℤ)) ≤ binary64.r x := by
  have hx : 0 < x := (Fp.two_pos _).trans_le h
  show _ ≤ Fp.round nearestEven 52 (-1074) x
  unfold Fp.round
  rw [if_pos hx.le]
  have h0 : (-1022 : ℤ) ≤ Int.log 2 x := by
    by_contra hc
    have h3 : (2:ℚ) ^ (Int.log 2 x + 1) ≤ 2 ^ (-1022 : ℤ) := zpow_le_zpow_right₀ (by norm_num) (by omega)
    exact absurd (h.trans_lt (Fp.lt_log x)) (by simpa using h3)
  have hl : Fp.last 52 (-1074) x = Int.log 2 x - 52 := by unfold Fp.last; push_cast; omega
  unfold Fp.up
  rw [hl]
  have h1 : (2:ℚ) ^ (Int.log 2 x - 52) ≤ x * 2 ^ (-52 : ℤ) := by
    rw [show Int.log 2 x - 52 = Int.log 2 x + -52 by ring, zpow_add₀ (by norm_num)]
    exact mul_le_mul_of_nonneg_right (Fp.log_le hx) (Fp.two_pos _).le
  have h2 := mul_le_mul_of_nonneg_right (nearest_ge (x / 2 ^ (Int.log 2 x - 52))) (Fp.two_pos (Int.log 2 x - 52)).le
  rw [sub_mul, div_mul_cancel₀ _ (Fp.two_pos _).ne'] at h2
  have h3 : (2:ℚ) ^ (-52 : ℤ) = 2 * 2 ^ (-53 : ℤ) := by norm_num
  rw [h3] at h1
  rw [mul_sub, mul_one]
  rw [mul_left_comm] at h1
  generalize x * (2:ℚ) ^ (-53 : ℤ) = y at *
  linarith

theorem rnd_le {x y : ℚ} (h : x ≤ y) : binary64.rnd x ≤ binary64.rnd y := binary64.mono x y h

/-! ## The ratchet -/

theorem preStep_ahead (M : Mth F64) {g : RatchetJoint F64} {a b : Body F64} {dt : F64} (hr : 0 < g.ratchet) (hp : g.phase = 0) (hd : g.angle ≤ b.angle - a.angle) :
    (g.preStep M a b dt).angle = M.floor ((b.angle - a.angle) / g.ratchet) * g.ratchet := by
  have zero1 : (0 : F64).1 = 0 := rfl
  have h1 : ¬ 0 < (g.angle - (b.angle - a.angle)) * g.ratchet := by
    rw [not_lt]
    have h2 : (g.angle - (b.angle - a.angle)).1 ≤ 0 := by
      have := binary64.mono (g.angle.1 - (b.angle - a.angle).1) 0 (sub_nonpos.2 hd)
      rwa [binary64.zero] at this
    have h3 : (0:ℚ) < g.ratchet.1 := hr
    have := binary64.mono ((g.angle - (b.angle - a.angle)).1 * g.ratchet.1) 0 (mul_nonpos_of_nonpos_of_nonneg h2 h3.le)
    rw [binary64.zero] at this
    exact this
  unfold RatchetJoint.preStep
  dsimp only
  rw [if_neg h1, hp]
  dsimp only
  have e1 : ∀ x : F64, x - 0 = x := fun x => Subtype.ext (by
    show binary64.r (x.1 - (0 : F64).1) = x.1
    rw [zero1, sub_zero]; exact x.2)
  have e2 : ∀ x : F64, x + 0 = x := fun x => Subtype.ext (by
    show binary64.r (x.1 + (0 : F64).1) = x.1
    rw [zero1, add_zero]; exact x.2)
  rw [e1, e2]

theorem tooth_mono {r : F64} (hr : 0 < r) {y z : ℤ} (h : y ≤ z) : toothAt r y ≤ toothAt r z :=
  rnd_le (mul_le_mul_of_nonneg_right (binary64.mono _ _ (by exact_mod_cast h)) (show (0:ℚ) ≤ r.1 from hr.le))

/-- **C139.** The ratchet keeps its angle while the bodies are behind it; else it takes a tooth. -/
theorem C139_tooth {M : Mth F64} (hM : WholePart M) {g : RatchetJoint F64} {a b : Body F64} {dt : F64} (hr : 0 < g.ratchet) (hp : g.phase = 0) :
    (0 < (g.angle - (b.angle - a.angle)) * g.ratchet → (g.preStep M a b dt).angle = g.angle) ∧
    (g.angle ≤ b.angle - a.angle → ∃ z : ℤ, (g.preStep M a b dt).angle = toothAt g.ratchet z) := by
  constructor
  · intro h
    unfold RatchetJoint.preStep
    dsimp only
    rw [if_pos h]
  · intro h
    exact ⟨_, by rw [preStep_ahead M hr hp h, hM]; rfl⟩

/-- **C139.** A ratchet holding the tooth `z` never gives it up while the bodies have truly passed it: while their angle is at least `z` times the distance of the teeth, as a product of
rational numbers. -/
theorem C139_keeps {M : Mth F64} (hM : WholePart M) {g : RatchetJoint F64} {a b : Body F64} {dt : F64} (hr : 0 < g.ratchet) (hp : g.phase = 0) {z : ℤ} (hz : |z| < 2 ^ 53)
    (hg : g.angle = toothAt g.ratchet z) (hd : (z : ℚ) * g.ratchet.1 ≤ (b.angle - a.angle).1) : toothAt g.ratchet z ≤ (g.preStep M a b dt).angle := by
  have h0 : g.angle ≤ b.angle - a.angle := by
    rw [hg]
    show binary64.r (binary64.r (z : ℚ) * g.ratchet.1) ≤ (b.angle - a.angle).1
    rw [round_int hz, ← (b.angle - a.angle).2]
    exact binary64.mono _ _ hd
  rw [preStep_ahead M hr hp h0, hM]
  refine tooth_mono hr ?_
  rw [Int.le_floor]
  show (z : ℚ) ≤ binary64.r ((b.angle - a.angle).1 / g.ratchet.1)
  rw [← round_int hz]
  exact binary64.mono _ _ ((le_div_iff₀ (show (0:ℚ) < g.ratchet.1 from hr)).2 hd)

/-- **C139.** At the rounded tooth it may lose it, but only that one: it holds at least the tooth below. -/
theorem C139_one {M : Mth F64} (hM : WholePart M) {g : RatchetJoint F64} {a b : Body F64} {dt : F64} (hr : 0 < g.ratchet) (hp : g.phase = 0) {z : ℤ} (h1 : 1 ≤ z) (hz : z < 2 ^ 53)
    (hn : (2:ℚ) ^ (-1022 : ℤ) ≤ z * g.ratchet.1) (hg : g.angle = toothAt g.ratchet z) (hd : g.angle ≤ b.angle - a.angle) : toothAt g.ratchet (z - 1) ≤ (g.preStep M a b dt).angle := by
  rw [preStep_ahead M hr hp hd, hM]
  refine tooth_mono hr ?_
  rw [Int.le_floor]
  show ((z - 1 : ℤ) : ℚ) ≤ binary64.r ((b.angle - a.angle).1 / g.ratchet.1)
  have ha : |z - 1| < 2 ^ 53 := by rw [abs_of_nonneg (by omega)]; omega
  have hz' : |z| < 2 ^ 53 := by rw [abs_of_nonneg (by omega)]; omega
  rw [← round_int ha]
  refine binary64.mono _ _ ((le_div_iff₀ (show (0:ℚ) < g.ratchet.1 from hr)).2 ?_)
  have h2 : binary64.r (z * g.ratchet.1) ≤ (b.angle - a.angle).1 := by
    have h3 : toothAt g.ratchet z ≤ b.angle - a.angle := hg ▸ hd
    have h4 : binary64.r (binary64.r (z : ℚ) * g.ratchet.1) ≤ (b.angle - a.angle).1 := h3
    rwa [round_int hz'] at h4
  refine le_trans ?_ ((round_ge hn).trans h2)
  have h5 : (z : ℚ) * 2 ^ (-53 : ℤ) ≤ 1 := by
    have h6 : (z : ℚ) ≤ 2 ^ 53 := by exact_mod_cast hz.le
    have h7 : (2:ℚ) ^ 53 * 2 ^ (-53 : ℤ) = 1 := by norm_num
    have := mul_le_mul_of_nonneg_right h6 (Fp.two_pos (-53)).le
    linarith
  have h8 : (0:ℚ) < g.ratchet.1 := hr
  push_cast
  nlinarith

/-! ## A tooth that is lost -/

/-- A ratchet with teeth 7/10 apart, that has seen no angle. -/
def f64Pawl : RatchetJoint F64 := ⟨⟨f64 1000, f64 (1/2), f64 100⟩, 0, 0, f64 (7/10), 0, 0, 0⟩
def f64Wheel (x : ℚ) : Body F64 := { Body.blank with m := 1, mInv := 1, i := 1, iInv := 1, angle := f64 x }
/-- The third tooth. -/
def f64Third : F64 := toothAt (f64 (7/10)) 3

/-- **C139.** A ratchet with teeth 7/10 apart takes its third tooth when the bodies stand at 5/2. When they come back to the third tooth, where nothing is to be corrected, it takes the
second one. -/
theorem C139_lost : (f64Pawl.preStep f64Mth (f64Wheel 0) (f64Wheel (5/2)) (f64 (1/10))).angle = f64Third ∧
    ((f64Pawl.preStep f64Mth (f64Wheel 0) (f64Wheel (5/2)) (f64 (1/10))).preStep f64Mth (f64Wheel 0) (f64Wheel f64Third.1) (f64 (1/10))).angle = toothAt (f64 (7/10)) 2 ∧
    toothAt (f64 (7/10)) 2 < f64Third ∧ f64Third.1 < 3 * (f64 (7/10)).1 := by decide +kernel

/-- The third tooth is held, the bodies rest on it, and something turns the second one back. -/
def f64Slips : World F64 :=
  { World.init (fun k => if k = 0 then f64Wheel 0 else { f64Wheel f64Third.1 with torque := -1 }) f64Shapes with joints := [⟨0, 1, .ratchet { f64Pawl with angle := f64Third }⟩] }
def f64SlipTick : Tick F64 := ⟨f64 (1/10), [0, 1], [], fun _ _ => true, fun _ _ => true⟩

/-- **C139.** And then the bodies turn back below the tooth, and the ratchet does nothing about it: two steps of the whole program. -/
theorem C139_released : (((f64Slips.step f64Mth f64Scene f64SlipTick).step f64Mth f64Scene f64SlipTick).joints.map fun l => match l.it with
      | .ratchet g => (g.angle, g.bias, g.jAcc)
      | _ => (0, 0, 0)) = [(toothAt (f64 (7/10)) 2, 0, 0)] ∧
    (((f64Slips.step f64Mth f64Scene f64SlipTick).step f64Mth f64Scene f64SlipTick).bodies 1).angle < f64Third := by decide +kernel

example : WholePart f64Mth := fun _ => rfl
example : 0 < f64Pawl.ratchet ∧ f64Pawl.phase = 0 ∧ (2:ℚ) ^ (-1022 : ℤ) ≤ (3 : ℤ) * f64Pawl.ratchet.1 ∧ f64Third ≤ (f64Wheel f64Third.1).angle - (f64Wheel 0).angle ∧
    ((3 : ℤ) : ℚ) * f64Pawl.ratchet.1 ≤ ((f64Wheel (5/2)).angle - (f64Wheel 0).angle).1 := by
  refine ⟨by decide +kernel, rfl, ?_, by decide +kernel, by decide +kernel⟩
  refine le_trans (b := (1:ℚ)) (zpow_le_one_of_nonpos₀ (by norm_num) (by norm_num)) (by decide +kernel)

end Cm
