import Verif.Model.SpaceHash
import Mathlib.Data.Int.GCD
import Mathlib.Data.Nat.Bitwise
import Mathlib.Data.Int.ModEq
import Mathlib.RingTheory.Coprime.Lemmas
import Mathlib.Tactic.NormNum
import Mathlib.Tactic.Ring
import Mathlib.Data.Fintype.EquivFin

/-!
# C143: how the spatial hash spreads the cells
-/

namespace Cm
open Hash

theorem word_mod (j : Int) (c : BitVec 64) {k : Nat} (hk : k ≤ 64) :
    (((BitVec.ofInt 64 j * c).toNat % 2 ^ k : Nat) : Int) = j * c.toNat % 2 ^ k := by
  have hd : (2 : Int) ^ k ∣ 2 ^ 64 := pow_dvd_pow 2 hk
  have hd' : 2 ^ k ∣ 2 ^ 64 := pow_dvd_pow 2 hk
  rw [BitVec.toNat_mul, Nat.mod_mod_of_dvd _ hd']
  push_cast
  rw [BitVec.toNat_ofInt]
  rw [Int.toNat_of_nonneg (Int.emod_nonneg _ (by positivity))]
  rw [Int.mul_emod, Nat.cast_pow, Nat.cast_ofNat, Int.emod_emod_of_dvd _ hd, ← Int.mul_emod]

/-- A cell against another one whose word is made with an odd factor. -/
theorem spread (x : BitVec 64) (j j' : Int) (c : BitVec 64) (hc : c.toNat % 2 = 1) {k : Nat} (hk : k ≤ 64) :
    (x ^^^ BitVec.ofInt 64 j * c).toNat % 2 ^ k = (x ^^^ BitVec.ofInt 64 j' * c).toNat % 2 ^ k ↔ (2 : Int) ^ k ∣ j - j' := by
  rw [BitVec.toNat_xor, BitVec.toNat_xor, Nat.xor_mod_two_pow, Nat.xor_mod_two_pow, Nat.xor_right_inj]
  have e : ∀ a b : Nat, a = b ↔ (a : Int) = b := fun a b => by omega
  rw [e, word_mod _ _ hk, word_mod _ _ hk, Int.emod_eq_emod_iff_emod_sub_eq_zero, ← Int.dvd_iff_emod_eq_zero, ← sub_mul]
  have h2 : IsCoprime (2 : Int) (c.toNat : Int) := ⟨-(c.toNat / 2 : Nat), 1, by omega⟩
  exact ⟨fun h => (h2.pow_left (m := k)).dvd_of_dvd_mul_right h, fun h => Dvd.dvd.mul_right h _⟩

/-- With a table of `2 ^ k` places, two cells of one column of the grid share a place exactly if the distance between them is
a multiple of `2 ^ k`. -/
theorem C143_column (i j j' : Int) {k : Nat} (hk : k ≤ 64) : hashFunc i j (2 ^ k) = hashFunc i j' (2 ^ k) ↔ (2 : Int) ^ k ∣ j - j' :=
  spread _ j j' _ (by decide) hk

/-- The same for two cells of one row. -/
theorem C143_row (i i' j : Int) {k : Nat} (hk : k ≤ 64) : hashFunc i j (2 ^ k) = hashFunc i' j (2 ^ k) ↔ (2 : Int) ^ k ∣ i - i' := by
  unfold hashFunc
  rw [BitVec.xor_comm, BitVec.xor_comm (BitVec.ofInt 64 i' * _)]
  exact spread _ i i' _ (by decide) hk

/-- So the places of any `2 ^ k` cells next to each other in a column are all the places of the table, each once. -/
theorem C143_all (i j : Int) {k : Nat} (hk : k ≤ 64) : ∀ p < 2 ^ k, ∃! d, d < 2 ^ k ∧ hashFunc i (j + (d : Nat)) (2 ^ k) = p := by
  have inj : ∀ d d' : Nat, d < 2 ^ k → d' < 2 ^ k → hashFunc i (j + d) (2 ^ k) = hashFunc i (j + d') (2 ^ k) → d = d' := by
    intro d d' h h' e
    rw [C143_column i _ _ hk] at e
    have e' : (2 : Int) ^ k ∣ (d : Int) - d' := by convert e using 1; ring
    have h1 : (d : Int) < 2 ^ k := by exact_mod_cast h
    have h2 : (d' : Int) < 2 ^ k := by exact_mod_cast h'
    have := Int.eq_zero_of_abs_lt_dvd e' (by rw [abs_lt]; omega)
    omega
  intro p hp
  have hlt : ∀ d, hashFunc i (j + (d : Nat)) (2 ^ k) < 2 ^ k := fun d => Nat.mod_lt _ (by positivity)
  have surj := (Finite.injective_iff_surjective (f := fun d : Fin (2 ^ k) => (⟨hashFunc i (j + (d.1 : Nat)) (2 ^ k), hlt d.1⟩ : Fin (2 ^ k)))).1
    (fun d d' e => Fin.ext (inj d.1 d'.1 d.2 d'.2 (by simpa using e)))
  obtain ⟨d, hd⟩ := surj ⟨p, hp⟩
  exact ⟨d.1, ⟨d.2, by simpa using hd⟩, fun d' h => inj d' d.1 h.1 d.2 (h.2.trans (by simpa using hd.symm))⟩

/-- Sixteen cells of a column in a table of sixteen places, and of one of fifteen places, where two of them share a place. -/
example : ((List.range 16).map fun d : Nat => hashFunc 3 (-5 + d) (2 ^ 4)).Nodup ∧ ¬ ((List.range 15).map fun d : Nat => hashFunc 3 (-5 + d) 15).Nodup := by
  decide +kernel

end Cm
