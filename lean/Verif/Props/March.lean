import Verif.Model.March
import Verif.Props.Polyline
import Mathlib.Algebra.BigOperators.Group.Finset.Basic
import Mathlib.Algebra.BigOperators.Intervals
import Mathlib.Tactic.Linarith
import Mathlib.Tactic.Ring
import Mathlib.Tactic.FieldSimp
import Mathlib.Tactic.NormNum
/-! # C55, C56, C83: marching squares -/
set_option linter.unusedSectionVars false
set_option linter.unusedSimpArgs false
set_option linter.unusedVariables false

namespace Cm
open Spec
variable {K : Type} [Field K] [LinearOrder K]

namespace Spec
/-- The abscissa of column `i` and the ordinate of row `j` of the grid. -/
def gridX (bb : BB K) (nx : Nat) (i : Nat) : K := bb.L + (bb.R - bb.L) * i / ((nx - 1 : Nat) : K)
def gridY (bb : BB K) (ny : Nat) (j : Nat) : K := bb.B + (bb.T - bb.B) * j / ((ny - 1 : Nat) : K)

/-- The grid point and the sample at column `i`, row `j`. -/
def gridP (bb : BB K) (nx ny i j : Nat) : V2 K := ⟨gridX bb nx i, gridY bb ny j⟩

/-- The cell with its lower left corner at column `i`, row `j`. -/
def gridCell (sample : V2 K → K) (bb : BB K) (nx ny i j : Nat) : MCell K where
  a := sample (gridP bb nx ny i j)
  b := sample (gridP bb nx ny (i + 1) j)
  c := sample (gridP bb nx ny i (j + 1))
  d := sample (gridP bb nx ny (i + 1) (j + 1))
  x0 := gridX bb nx i
  x1 := gridX bb nx (i + 1)
  y0 := gridY bb ny j
  y1 := gridY bb ny (j + 1)

/-- All cells, row by row. -/
def gridCells (sample : V2 K → K) (bb : BB K) (nx ny : Nat) : List (MCell K) :=
  (List.range (ny - 1)).flatMap fun j => (List.range (nx - 1)).map fun i => gridCell sample bb nx ny i j

/-- All grid points, row by row. -/
def gridPoints (bb : BB K) (nx ny : Nat) : List (V2 K) :=
  (List.range ny).flatMap fun j => (List.range nx).map fun i => gridP bb nx ny i j
end Spec

/-! ## C56: what the loops visit -/

theorem mlerp_X (bb : BB K) (nx i : Nat) : mlerp bb.L bb.R ((i : K) * (1 / ((nx - 1 : Nat) : K))) = gridX bb nx i := by
  unfold mlerp gridX
  ring

theorem mlerp_Y (bb : BB K) (ny j : Nat) : mlerp bb.B bb.T ((j : K) * (1 / ((ny - 1 : Nat) : K))) = gridY bb ny j := by
  unfold mlerp gridY
  ring

theorem gridX_zero (bb : BB K) (nx : Nat) : gridX bb nx 0 = bb.L := by simp [gridX]
theorem gridY_zero (bb : BB K) (ny : Nat) : gridY bb ny 0 = bb.B := by simp [gridY]

theorem marchCols_spec (sample : V2 K → K) (bb : BB K) (nx ny j : Nat) (hnx : 1 ≤ nx) : ∀ (rem i : Nat) (b d : K) (buffer : List K) (log : MLog K),
    rem + i = nx - 1 → b = sample (gridP bb nx ny i j) → d = sample (gridP bb nx ny i (j + 1)) → buffer.length = nx →
    (∀ k < nx, buffer.getD k 0 = if k ≤ i then sample (gridP bb nx ny k (j + 1)) else sample (gridP bb nx ny k j)) →
    let r := marchCols sample bb (1 / ((nx - 1 : Nat) : K)) (gridY bb ny j) (gridY bb ny (j + 1)) rem i b d buffer log
    r.1.length = nx ∧ (∀ k < nx, r.1.getD k 0 = sample (gridP bb nx ny k (j + 1))) ∧
    r.2.cells = log.cells ++ (List.range rem).map (fun k => gridCell sample bb nx ny (i + k) j) ∧
    r.2.points = log.points ++ (List.range rem).map (fun k => gridP bb nx ny (i + k + 1) (j + 1)) := by
  intro rem
  induction rem with
  | zero =>
    intro i b d buffer log hi hb hd hl hbuf
    simp only [marchCols, List.range_zero, List.map_nil, List.append_nil, and_true]
    refine ⟨hl, fun k hk => ?_⟩
    rw [hbuf k hk, if_pos (by omega)]
  | succ rem ih =>
    intro i b d buffer log hi hb hd hl hbuf
    rw [marchCols]
    simp only [mlerp_X]
    have hb1 : buffer.getD (i + 1) 0 = sample (gridP bb nx ny (i + 1) j) := by
      rw [hbuf (i + 1) (by omega), if_neg (by omega)]
    obtain ⟨h1, h2, h3, h4⟩ := ih (i + 1) (buffer.getD (i + 1) 0) (sample ⟨gridX bb nx (i + 1), gridY bb ny (j + 1)⟩)
      (buffer.set (i + 1) (sample ⟨gridX bb nx (i + 1), gridY bb ny (j + 1)⟩))
      ⟨log.points ++ [⟨gridX bb nx (i + 1), gridY bb ny (j + 1)⟩], log.cells ++ [⟨b, buffer.getD (i + 1) 0, d,
        sample ⟨gridX bb nx (i + 1), gridY bb ny (j + 1)⟩, gridX bb nx i, gridX bb nx (i + 1), gridY bb ny j, gridY bb ny (j + 1)⟩]⟩
      (by omega) hb1 rfl (by simpa using hl) (by
        intro k hk
        by_cases hki : k = i + 1
        · subst hki
          rw [if_pos (le_refl _)]
          simp [List.getD, hl, hk, gridP]
        · have : (buffer.set (i + 1) (sample ⟨gridX bb nx (i + 1), gridY bb ny (j + 1)⟩)).getD k 0 = buffer.getD k 0 := by
            simp only [List.getD_eq_getElem?_getD]
            rw [List.getElem?_set_ne (fun e => hki e.symm)]
          rw [this, hbuf k hk]
          by_cases hki' : k ≤ i
          · rw [if_pos hki', if_pos (by omega)]
          · rw [if_neg hki', if_neg (by omega)])
    refine ⟨h1, h2, ?_, ?_⟩
    · rw [h3, List.range_succ_eq_map, List.map_cons, List.map_map, List.append_assoc]
      congr 1
      rw [List.singleton_append]
      congr 1
      · simp only [gridCell, Nat.add_zero, hb1, hb, hd]
        rfl
      · apply List.map_congr_left
        intro k _
        simp only [Function.comp_apply]
        congr 1
        omega
    · rw [h4, List.range_succ_eq_map, List.map_cons, List.map_map, List.append_assoc]
      congr 1
      rw [List.singleton_append]
      congr 1
      apply List.map_congr_left
      intro k _
      simp only [Function.comp_apply]
      congr 1
      omega

theorem map_range_pos {α : Type} (n : Nat) (h : 1 ≤ n) (f : Nat → α) : (List.range n).map f = f 0 :: (List.range (n - 1)).map fun k => f (k + 1) := by
  obtain ⟨m, rfl⟩ : ∃ m, n = m + 1 := ⟨n - 1, by omega⟩
  rw [List.range_succ_eq_map, List.map_cons, List.map_map]
  rfl

theorem marchRows_spec (sample : V2 K → K) (bb : BB K) (nx ny : Nat) (hnx : 1 ≤ nx) : ∀ (rem j : Nat) (buffer : List K) (log : MLog K),
    buffer.length = nx → (∀ k < nx, buffer.getD k 0 = sample (gridP bb nx ny k j)) →
    let r := marchRows sample bb (1 / ((nx - 1 : Nat) : K)) (1 / ((ny - 1 : Nat) : K)) nx rem j buffer log
    r.cells = log.cells ++ (List.range rem).flatMap (fun m => (List.range (nx - 1)).map fun i => gridCell sample bb nx ny i (j + m)) ∧
    r.points = log.points ++ (List.range rem).flatMap (fun m => (List.range nx).map fun i => gridP bb nx ny i (j + m + 1)) := by
  intro rem
  induction rem with
  | zero => intro j buffer log _ _; simp [marchRows]
  | succ rem ih =>
    intro j buffer log hl hbuf
    rw [marchRows]
    simp only [mlerp_Y]
    obtain ⟨h1, h2, h3, h4⟩ := marchCols_spec sample bb nx ny j hnx (nx - 1) 0 (buffer.getD 0 0) (sample ⟨bb.L, gridY bb ny (j + 1)⟩)
      (buffer.set 0 (sample ⟨bb.L, gridY bb ny (j + 1)⟩)) ⟨log.points ++ [⟨bb.L, gridY bb ny (j + 1)⟩], log.cells⟩ (by omega)
      (hbuf 0 (by omega)) (by rw [gridP, gridX_zero]) (by simpa using hl) (by
        intro k hk
        by_cases hk0 : k = 0
        · subst hk0
          rw [if_pos (le_refl _)]
          simp [List.getD, hl, hk, gridP, gridX_zero]
        · have : (buffer.set 0 (sample ⟨bb.L, gridY bb ny (j + 1)⟩)).getD k 0 = buffer.getD k 0 := by
            simp only [List.getD_eq_getElem?_getD]
            rw [List.getElem?_set_ne (fun e => hk0 e.symm)]
          rw [this, hbuf k hk, if_neg (by omega)])
    obtain ⟨h5, h6⟩ := ih (j + 1) _ (marchCols sample bb (1 / ((nx - 1 : Nat) : K)) (gridY bb ny j) (gridY bb ny (j + 1)) (nx - 1) 0 (buffer.getD 0 0)
      (sample ⟨bb.L, gridY bb ny (j + 1)⟩) (buffer.set 0 (sample ⟨bb.L, gridY bb ny (j + 1)⟩))
      ⟨log.points ++ [⟨bb.L, gridY bb ny (j + 1)⟩], log.cells⟩).2 h1 h2
    refine ⟨?_, ?_⟩
    · rw [h5, h3, List.range_succ_eq_map, List.flatMap_cons, List.flatMap_map, List.append_assoc]
      simp only [Nat.zero_add, Nat.add_zero]
      congr 2
      apply List.flatMap_congr
      intro m _
      rw [show j + 1 + m = j + (m + 1) by omega]
    · rw [h6, h4, List.range_succ_eq_map, List.flatMap_cons, List.flatMap_map, map_range_pos nx hnx (fun i => gridP bb nx ny i (j + 0 + 1))]
      simp only [Nat.zero_add, Nat.add_zero, List.append_assoc, List.singleton_append, List.cons_append, List.nil_append]
      congr 2
      · rw [gridP, gridX_zero]
      · congr 1
        apply List.flatMap_congr
        intro m _
        rw [show j + 1 + m + 1 = j + (m + 1) + 1 by omega]

/-- **C56.** Marching calls the cell function once for every cell of the grid, row by row, with the samples at its four corners and their
coordinates, and samples every grid point exactly once. -/
theorem C56_cells (sample : V2 K → K) (bb : BB K) (nx ny : Nat) (hnx : 2 ≤ nx) (hny : 2 ≤ ny) :
    (marchCells sample bb nx ny).cells = gridCells sample bb nx ny ∧ (marchCells sample bb nx ny).points = gridPoints bb nx ny := by
  unfold marchCells
  simp only [mlerp_X]
  obtain ⟨h1, h2⟩ := marchRows_spec sample bb nx ny (by omega) (ny - 1) 0
    (((List.range nx).map fun i => (⟨gridX bb nx i, bb.B⟩ : V2 K)).map sample) ⟨(List.range nx).map fun i => (⟨gridX bb nx i, bb.B⟩ : V2 K), []⟩
    (by simp) (by
      intro k hk
      simp [List.getD, hk, gridP, gridY_zero])
  refine ⟨?_, ?_⟩
  · rw [h1]
    simp only [List.nil_append, Nat.zero_add, gridCells]
  · rw [h2]
    unfold gridPoints
    conv_rhs => rw [show ny = (ny - 1) + 1 by omega, List.range_succ_eq_map, List.flatMap_cons, List.flatMap_map]
    rw [show ny - 1 + 1 = ny by omega]
    simp only [Nat.zero_add, gridP, gridY_zero]

/-- A grid of three by two samples of `x + 10 y`: two cells and six points. -/
example : (marchCells (fun p : V2 ℚ => p.x + 10 * p.y) ⟨0, 0, 2, 1⟩ 3 2).cells =
    [⟨0, 1, 10, 11, 0, 1, 0, 1⟩, ⟨1, 2, 11, 12, 1, 2, 0, 1⟩] := by decide +kernel

/-! ## C55: balance -/

/-- Starts minus ends at a point. -/
def bal (segs : List (V2 K × V2 K)) (p : V2 K) : ℤ := outs segs p - ins segs p

/-- One if the points are the same. -/
def dlt (u p : V2 K) : ℤ := if u = p then 1 else 0

/-- One above the threshold. -/
def iota (t x : K) : ℤ := if x > t then 1 else 0

theorem bal_append (a b : List (V2 K × V2 K)) (p : V2 K) : bal (a ++ b) p = bal a p + bal b p := by
  unfold bal
  rw [outs_append, ins_append]
  push_cast
  ring

theorem bal_nil (p : V2 K) : bal [] p = 0 := by simp [bal, outs, ins]

theorem bal_mseg (v0 v1 p : V2 K) : bal (mseg v0 v1) p = dlt v1 p - dlt v0 p := by
  unfold mseg
  split
  · rename_i h
    rw [h, bal_nil, sub_self]
  · simp only [bal, outs, ins, List.map_cons, List.map_nil, List.count_cons, List.count_nil, dlt, beq_iff_eq]
    push_cast
    ring

theorem bal_msegs (a b c p : V2 K) : bal (msegs a b c) p = dlt c p - dlt a p := by
  unfold msegs
  rw [bal_append, bal_mseg, bal_mseg]
  ring

/-- In a soft cell: at each side that is crossed, a start or an end, by the direction of the crossing. -/
theorem bal_soft (t : K) (q : MCell K) (p : V2 K) : bal (softCell t q) p =
    (iota t q.a - iota t q.b) * dlt ⟨midlerp q.x0 q.x1 q.a q.b t, q.y0⟩ p - (iota t q.c - iota t q.d) * dlt ⟨midlerp q.x0 q.x1 q.c q.d t, q.y1⟩ p +
    (iota t q.b - iota t q.d) * dlt ⟨q.x1, midlerp q.y0 q.y1 q.b q.d t⟩ p - (iota t q.a - iota t q.c) * dlt ⟨q.x0, midlerp q.y0 q.y1 q.a q.c t⟩ p := by
  unfold softCell MCell.code iota
  by_cases ha : q.a > t <;> by_cases hb : q.b > t <;> by_cases hc : q.c > t <;> by_cases hd : q.d > t <;>
    simp only [ha, hb, hc, hd, if_true, if_false, Nat.reduceAdd, bal_append, bal_mseg, bal_nil] <;> ring

/-- In a hard cell the same, at the middles of the sides. -/
theorem bal_hard (t : K) (q : MCell K) (p : V2 K) : bal (hardCell t q) p =
    (iota t q.a - iota t q.b) * dlt ⟨mlerp q.x0 q.x1 (1 / 2), q.y0⟩ p - (iota t q.c - iota t q.d) * dlt ⟨mlerp q.x0 q.x1 (1 / 2), q.y1⟩ p +
    (iota t q.b - iota t q.d) * dlt ⟨q.x1, mlerp q.y0 q.y1 (1 / 2)⟩ p - (iota t q.a - iota t q.c) * dlt ⟨q.x0, mlerp q.y0 q.y1 (1 / 2)⟩ p := by
  unfold hardCell MCell.code iota
  by_cases ha : q.a > t <;> by_cases hb : q.b > t <;> by_cases hc : q.c > t <;> by_cases hd : q.d > t <;>
    simp only [ha, hb, hc, hd, if_true, if_false, Nat.reduceAdd, bal_append, bal_mseg, bal_msegs, bal_nil] <;> ring

/-- Sum over the naturals below `n`. -/
def rsum : Nat → (Nat → ℤ) → ℤ
  | 0, _ => 0
  | n + 1, f => rsum n f + f n

theorem rsum_zero (n : Nat) (f : Nat → ℤ) (h : ∀ i < n, f i = 0) : rsum n f = 0 := by
  induction n with
  | zero => rfl
  | succ n ih => rw [rsum, ih fun i hi => h i (by omega), h n (by omega)]; rfl

theorem bal_flatMap_range (n : Nat) (f : Nat → List (V2 K × V2 K)) (p : V2 K) :
    bal ((List.range n).flatMap f) p = rsum n fun i => bal (f i) p := by
  induction n with
  | zero => rw [List.range_zero, List.flatMap_nil, bal_nil, rsum]
  | succ n ih => rw [List.range_succ, List.flatMap_append, bal_append, ih, rsum, List.flatMap_singleton]

theorem rsum_tele (n : Nat) (f g h : Nat → ℤ) : rsum n (fun i => f i - g i + h (i + 1) - h i) = rsum n f - rsum n g + h n - h 0 := by
  induction n with
  | zero => simp [rsum]
  | succ n ih => simp only [rsum, ih]; ring

theorem rsum_tele2 (n : Nat) (F : Nat → ℤ) (u v : Nat → ℤ) : rsum n (fun j => F j - F (j + 1) + u j - v j) = F 0 - F n + rsum n u - rsum n v := by
  induction n with
  | zero => simp [rsum]
  | succ n ih => simp only [rsum, ih]; ring

/-- Over the whole grid the contributions of inner sides cancel; what is left are the four outer sides. -/
theorem bal_grid (cell : MCell K → List (V2 K × V2 K)) (sample : V2 K → K) (bb : BB K) (nx ny : Nat) (p : V2 K) (H V : Nat → Nat → ℤ)
    (h : ∀ i j, bal (cell (gridCell sample bb nx ny i j)) p = H i j - H i (j + 1) + V (i + 1) j - V i j) :
    bal ((gridCells sample bb nx ny).flatMap cell) p =
      rsum (nx - 1) (fun i => H i 0) - rsum (nx - 1) (fun i => H i (ny - 1)) + rsum (ny - 1) (fun j => V (nx - 1) j) - rsum (ny - 1) (fun j => V 0 j) := by
  unfold gridCells
  rw [List.flatMap_assoc, bal_flatMap_range]
  have : ∀ j, bal (((List.range (nx - 1)).map fun i => gridCell sample bb nx ny i j).flatMap cell) p =
      rsum (nx - 1) (fun i => H i j) - rsum (nx - 1) (fun i => H i (j + 1)) + V (nx - 1) j - V 0 j := by
    intro j
    rw [List.flatMap_map, bal_flatMap_range]
    simp only [h]
    rw [rsum_tele (nx - 1) (fun i => H i j) (fun i => H i (j + 1)) (fun i => V i j)]
  simp only [this]
  rw [rsum_tele2 (ny - 1) (fun j => rsum (nx - 1) fun i => H i j) (fun j => V (nx - 1) j) (fun j => V 0 j)]

theorem dlt_ne {u p : V2 K} (h : u ≠ p) : dlt u p = 0 := if_neg h

/-- The contribution of the lower side, and of the left side, of cell `i`, `j`, with the crossing at `hx`, `vy`. -/
def sideH (t : K) (sample : V2 K → K) (bb : BB K) (nx ny : Nat) (p : V2 K) (hx : K → K → K → K → K) (i j : Nat) : ℤ :=
  (iota t (sample (gridP bb nx ny i j)) - iota t (sample (gridP bb nx ny (i + 1) j))) *
    dlt ⟨hx (gridX bb nx i) (gridX bb nx (i + 1)) (sample (gridP bb nx ny i j)) (sample (gridP bb nx ny (i + 1) j)), gridY bb ny j⟩ p
def sideV (t : K) (sample : V2 K → K) (bb : BB K) (nx ny : Nat) (p : V2 K) (vy : K → K → K → K → K) (i j : Nat) : ℤ :=
  (iota t (sample (gridP bb nx ny i j)) - iota t (sample (gridP bb nx ny i (j + 1)))) *
    dlt ⟨gridX bb nx i, vy (gridY bb ny j) (gridY bb ny (j + 1)) (sample (gridP bb nx ny i j)) (sample (gridP bb nx ny i (j + 1)))⟩ p

theorem bal_soft_grid (t : K) (sample : V2 K → K) (bb : BB K) (nx ny : Nat) (p : V2 K) (i j : Nat) :
    bal (softCell t (gridCell sample bb nx ny i j)) p =
      sideH t sample bb nx ny p (fun a b s u => midlerp a b s u t) i j - sideH t sample bb nx ny p (fun a b s u => midlerp a b s u t) i (j + 1) +
      sideV t sample bb nx ny p (fun a b s u => midlerp a b s u t) (i + 1) j - sideV t sample bb nx ny p (fun a b s u => midlerp a b s u t) i j := by
  rw [bal_soft]
  rfl

theorem bal_hard_grid (t : K) (sample : V2 K → K) (bb : BB K) (nx ny : Nat) (p : V2 K) (i j : Nat) :
    bal (hardCell t (gridCell sample bb nx ny i j)) p =
      sideH t sample bb nx ny p (fun a b _ _ => mlerp a b (1 / 2)) i j - sideH t sample bb nx ny p (fun a b _ _ => mlerp a b (1 / 2)) i (j + 1) +
      sideV t sample bb nx ny p (fun a b _ _ => mlerp a b (1 / 2)) (i + 1) j - sideV t sample bb nx ny p (fun a b _ _ => mlerp a b (1 / 2)) i j := by
  rw [bal_hard]
  rfl

variable [IsStrictOrderedRing K]

theorem gridX_last (bb : BB K) (nx : Nat) (h : 2 ≤ nx) : gridX bb nx (nx - 1) = bb.R := by
  unfold gridX
  have : ((nx - 1 : Nat) : K) ≠ 0 := by
    rw [Nat.cast_ne_zero]
    omega
  field_simp
  ring

theorem gridY_last (bb : BB K) (ny : Nat) (h : 2 ≤ ny) : gridY bb ny (ny - 1) = bb.T := by
  unfold gridY
  have : ((ny - 1 : Nat) : K) ≠ 0 := by
    rw [Nat.cast_ne_zero]
    omega
  field_simp
  ring

/-- The contributions of the four outer sides vanish at a point that is on none of them. -/
theorem border_zero (t : K) (sample : V2 K → K) (bb : BB K) (nx ny : Nat) (hnx : 2 ≤ nx) (hny : 2 ≤ ny) (p : V2 K) (hx vy : K → K → K → K → K)
    (h1 : p.x ≠ bb.L) (h2 : p.x ≠ bb.R) (h3 : p.y ≠ bb.B) (h4 : p.y ≠ bb.T) :
    rsum (nx - 1) (fun i => sideH t sample bb nx ny p hx i 0) - rsum (nx - 1) (fun i => sideH t sample bb nx ny p hx i (ny - 1)) +
      rsum (ny - 1) (fun j => sideV t sample bb nx ny p vy (nx - 1) j) - rsum (ny - 1) (fun j => sideV t sample bb nx ny p vy 0 j) = 0 := by
  rw [rsum_zero, rsum_zero, rsum_zero, rsum_zero]
  · rfl
  · intro j _
    rw [sideV, gridX_zero, dlt_ne (fun e => h1 (by rw [← e])), mul_zero]
  · intro j _
    rw [sideV, gridX_last bb nx hnx, dlt_ne (fun e => h2 (by rw [← e])), mul_zero]
  · intro j _
    rw [sideH, gridY_last bb ny hny, dlt_ne (fun e => h4 (by rw [← e])), mul_zero]
  · intro j _
    rw [sideH, gridY_zero, dlt_ne (fun e => h3 (by rw [← e])), mul_zero]

/-- **C55.** Whatever is sampled and whatever the threshold, at every point off the border of the box as many segments of `MarchSoft` start as
end: contours break off at the border only. -/
theorem C55_soft (sample : V2 K → K) (bb : BB K) (nx ny : Nat) (hnx : 2 ≤ nx) (hny : 2 ≤ ny) (t : K) (p : V2 K)
    (h1 : p.x ≠ bb.L) (h2 : p.x ≠ bb.R) (h3 : p.y ≠ bb.B) (h4 : p.y ≠ bb.T) :
    outs (marchSoft sample bb nx ny t) p = ins (marchSoft sample bb nx ny t) p := by
  have : bal (marchSoft sample bb nx ny t) p = 0 := by
    unfold marchSoft
    rw [(C56_cells sample bb nx ny hnx hny).1, bal_grid _ sample bb nx ny p _ _ (bal_soft_grid t sample bb nx ny p)]
    exact border_zero t sample bb nx ny hnx hny p _ _ h1 h2 h3 h4
  unfold bal at this
  omega

/-- **C55.** The same for `MarchHard`. -/
theorem C55_hard (sample : V2 K → K) (bb : BB K) (nx ny : Nat) (hnx : 2 ≤ nx) (hny : 2 ≤ ny) (t : K) (p : V2 K)
    (h1 : p.x ≠ bb.L) (h2 : p.x ≠ bb.R) (h3 : p.y ≠ bb.B) (h4 : p.y ≠ bb.T) :
    outs (marchHard sample bb nx ny t) p = ins (marchHard sample bb nx ny t) p := by
  have : bal (marchHard sample bb nx ny t) p = 0 := by
    unfold marchHard
    rw [(C56_cells sample bb nx ny hnx hny).1, bal_grid _ sample bb nx ny p _ _ (bal_hard_grid t sample bb nx ny p)]
    exact border_zero t sample bb nx ny hnx hny p _ _ h1 h2 h3 h4
  unfold bal at this
  omega

namespace Spec
/-- No sample on the border of the grid is above the threshold. -/
def BorderBelow (sample : V2 K → K) (bb : BB K) (nx ny : Nat) (t : K) : Prop :=
  ∀ i j, i < nx → j < ny → (i = 0 ∨ j = 0 ∨ i = nx - 1 ∨ j = ny - 1) → sample (gridP bb nx ny i j) ≤ t
end Spec

/-- With no border sample above the threshold, the outer sides contribute nothing anywhere. -/
theorem border_below (t : K) (sample : V2 K → K) (bb : BB K) (nx ny : Nat) (hnx : 2 ≤ nx) (hny : 2 ≤ ny) (p : V2 K) (hx vy : K → K → K → K → K)
    (h : BorderBelow sample bb nx ny t) :
    rsum (nx - 1) (fun i => sideH t sample bb nx ny p hx i 0) - rsum (nx - 1) (fun i => sideH t sample bb nx ny p hx i (ny - 1)) +
      rsum (ny - 1) (fun j => sideV t sample bb nx ny p vy (nx - 1) j) - rsum (ny - 1) (fun j => sideV t sample bb nx ny p vy 0 j) = 0 := by
  have hi : ∀ i j, i < nx → j < ny → (i = 0 ∨ j = 0 ∨ i = nx - 1 ∨ j = ny - 1) → iota t (sample (gridP bb nx ny i j)) = 0 :=
    fun i j h1 h2 h3 => if_neg (not_lt.2 (h i j h1 h2 h3))
  rw [rsum_zero, rsum_zero, rsum_zero, rsum_zero]
  · rfl
  · intro j hj
    rw [sideV, hi 0 j (by omega) (by omega) (by omega), hi 0 (j + 1) (by omega) (by omega) (by omega), sub_self, zero_mul]
  · intro j hj
    rw [sideV, hi _ j (by omega) (by omega) (by omega), hi _ (j + 1) (by omega) (by omega) (by omega), sub_self, zero_mul]
  · intro i hi'
    rw [sideH, hi i _ (by omega) (by omega) (by omega), hi (i + 1) _ (by omega) (by omega) (by omega), sub_self, zero_mul]
  · intro i hi'
    rw [sideH, hi i _ (by omega) (by omega) (by omega), hi (i + 1) _ (by omega) (by omega) (by omega), sub_self, zero_mul]

/-- **C55.** If no border sample is above the threshold, starts and ends balance everywhere, for both. -/
theorem C55_everywhere (sample : V2 K → K) (bb : BB K) (nx ny : Nat) (hnx : 2 ≤ nx) (hny : 2 ≤ ny) (t : K)
    (h : BorderBelow sample bb nx ny t) (p : V2 K) :
    outs (marchSoft sample bb nx ny t) p = ins (marchSoft sample bb nx ny t) p ∧
    outs (marchHard sample bb nx ny t) p = ins (marchHard sample bb nx ny t) p := by
  constructor
  · have : bal (marchSoft sample bb nx ny t) p = 0 := by
      unfold marchSoft
      rw [(C56_cells sample bb nx ny hnx hny).1, bal_grid _ sample bb nx ny p _ _ (bal_soft_grid t sample bb nx ny p)]
      exact border_below t sample bb nx ny hnx hny p _ _ h
    unfold bal at this
    omega
  · have : bal (marchHard sample bb nx ny t) p = 0 := by
      unfold marchHard
      rw [(C56_cells sample bb nx ny hnx hny).1, bal_grid _ sample bb nx ny p _ _ (bal_hard_grid t sample bb nx ny p)]
      exact border_below t sample bb nx ny hnx hny p _ _ h
    unfold bal at this
    omega

end Cm
