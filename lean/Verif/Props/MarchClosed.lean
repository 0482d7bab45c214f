import Verif.Props.March
/-! # C83: contours that do not reach the border are closed polylines -/
set_option linter.unusedSectionVars false
set_option linter.unusedSimpArgs false
set_option linter.unusedVariables false

namespace Cm
open Spec
variable {K : Type} [Field K] [LinearOrder K]

/-! ## C81 with points passed more than once -/

namespace Spec
/-- Whenever a segment starting at `v` comes, more segments have ended at `v` than started there. -/
def Passing (segs : List (V2 K × V2 K)) (v : V2 K) : Prop :=
  ∀ pre w post, segs = pre ++ (v, w) :: post → outs pre v < ins pre v
end Spec

theorem added_heads (v0 v1 : V2 K) (lines result : List (Line K)) (h : Added v0 v1 lines result) (c : V2 K) (hc : ∀ l ∈ lines, l.head? ≠ some c)
    (hv : v0 = c → ∃ l ∈ lines, l.getLast? = some c) : ∀ l ∈ result, l.head? ≠ some c := by
  intro l hl
  have hpush : ∀ (x y : Line K), x ∈ lines → x.getLast? = some v0 → (x ++ y).head? ≠ some c := by
    intro x y hx hxl
    have := hc x hx
    cases x with
    | nil => simp at hxl
    | cons a x => simpa using this
  cases h with
  | close x rest h1 h2 h3 h4 =>
    rcases List.mem_cons.1 (h4.mem_iff.1 hl) with rfl | hm
    · exact hpush x _ (h1.mem_iff.2 (by simp)) h2
    · exact hc l (h1.mem_iff.2 (by simp [hm]))
  | join x y rest h1 h2 h3 h4 =>
    rcases List.mem_cons.1 (h4.mem_iff.1 hl) with rfl | hm
    · exact hpush x _ (h1.mem_iff.2 (by simp)) h2
    · exact hc l (h1.mem_iff.2 (by simp [hm]))
  | push x rest h1 h2 h3 h4 =>
    rcases List.mem_cons.1 (h4.mem_iff.1 hl) with rfl | hm
    · exact hpush x _ (h1.mem_iff.2 (by simp)) h2
    · exact hc l (h1.mem_iff.2 (by simp [hm]))
  | enqueue x rest h1 h2 h3 h4 =>
    rcases List.mem_cons.1 (h4.mem_iff.1 hl) with rfl | hm
    · intro e
      simp at e
      obtain ⟨m, hm, hml⟩ := hv e
      exact h3 m hm (e ▸ hml)
    · exact hc l (h1.mem_iff.2 (by simp [hm]))
  | fresh h1 h2 h3 =>
    rcases List.mem_cons.1 (h3.mem_iff.1 hl) with rfl | hm
    · intro e
      simp at e
      obtain ⟨m, hm, hml⟩ := hv e
      exact h1 m hm (e ▸ hml)
    · exact hc l hm

theorem added_apart' (v0 v1 : V2 K) (lines result : List (Line K)) (h : Added v0 v1 lines result) (hlen : ∀ l ∈ lines, 2 ≤ l.length)
    (hout : outs (allPairs lines) v1 ≤ 1 ∨ ∀ l ∈ lines, l.head? ≠ some v1) (hp : lines.Pairwise Apart) : result.Pairwise Apart := by
  rcases hout with hout | hout
  · exact added_apart v0 v1 lines result h hlen hout hp
  · by_cases hle : outs (allPairs lines) v1 ≤ 1
    · exact added_apart v0 v1 lines result h hlen hle hp
    · cases h with
      | close l rest h1 h2 h3 h4 => exact absurd h3 (hout l (h1.mem_iff.2 (by simp)))
      | join l m rest h1 h2 h3 h4 => exact absurd h3 (hout m (h1.mem_iff.2 (by simp)))
      | push l rest h1 h2 h3 h4 =>
        rw [pairwise_perm h4]
        rw [pairwise_perm h1] at hp
        rw [List.pairwise_cons] at hp ⊢
        refine ⟨fun m hm => ⟨fun v hv => ?_, fun v hv => ?_⟩, hp.2⟩
        · rw [List.getLast?_append] at hv
          simp at hv
          subst hv
          exact h3 m (h1.mem_iff.2 (by simp [hm]))
        · have := (hp.1 m hm).2 v hv
          cases l with
          | nil => simp at h2
          | cons a l => simpa using this
      | enqueue l rest h1 h2 h3 h4 => exact absurd h2 (hout l (h1.mem_iff.2 (by simp)))
      | fresh h1 h2 h3 =>
        rw [pairwise_perm h3, List.pairwise_cons]
        refine ⟨fun m hm => ⟨fun v hv => ?_, fun v hv => ?_⟩, hp⟩
        · simp at hv; subst hv; exact h2 m hm
        · intro e
          simp at e
          subst e
          exact h1 m hm hv

theorem collectAll_append (a b : List (V2 K × V2 K)) (lines : List (Line K)) : collectAll (a ++ b) lines = collectAll b (collectAll a lines) := by
  simp [collectAll, List.foldl_append]

/-- **C81.** The same if the points that start more than one segment are only passed: each segment starting there comes when more segments
have ended there than started. -/
theorem C81_passing (segs : List (V2 K × V2 K)) (h1 : ∀ v, outs segs v ≤ 1 ∨ Passing segs v) (h2 : ∀ v, outs segs v = ins segs v) :
    ∀ l ∈ collectAll segs [], isClosed l = true := by
  have key : ∀ (pre post : List (V2 K × V2 K)), pre ++ post = segs → (collectAll pre []).Pairwise Apart ∧
      ∀ v, Passing segs v → ∀ l ∈ collectAll pre [], l.head? ≠ some v := by
    intro pre
    induction pre using List.reverseRecOn with
    | nil => intro post _; simp [collectAll]
    | append_singleton pre s ih =>
      intro post hseg
      obtain ⟨i1, i2⟩ := ih (s :: post) (by simpa using hseg)
      obtain ⟨hpairs, hlen⟩ := C53_collect pre
      rw [collectAll_append]
      have hadd := collect_added s.1 s.2 (collectAll pre [])
      have hc : collectAll [s] (collectAll pre []) = collectSegment s.1 s.2 (collectAll pre []) := rfl
      rw [hc]
      refine ⟨added_apart' _ _ _ _ hadd hlen ?_ i1, fun v hv => added_heads _ _ _ _ hadd v (i2 v hv) fun hs => ?_⟩
      · rcases h1 s.2 with h | h
        · left
          rw [outs_perm hpairs]
          rw [← hseg, outs_append, outs_append] at h
          omega
        · exact Or.inr (i2 _ h)
      · have hlt := hv pre s.2 post (by rw [← hseg, ← hs]; simp)
        have hb := C81_balance pre v
        have hen : 0 < ending (collectAll pre []) v := by omega
        obtain ⟨m, hm, hma⟩ := List.countP_pos_iff.1 hen
        exact ⟨m, hm, by simpa using hma⟩
  obtain ⟨hp, -⟩ := key segs [] (by simp)
  intro l hl
  have hlen := (C53_collect segs).2 l hl
  obtain ⟨a, ha⟩ : ∃ a, l.head? = some a := by
    cases l with
    | nil => simp at hlen
    | cons a l => exact ⟨a, rfl⟩
  have hbal := C81_balance segs a
  rw [h2 a] at hbal
  have hst : 0 < starting (collectAll segs []) a := List.countP_pos_iff.2 ⟨l, hl, by simp [ha]⟩
  have hen : 0 < ending (collectAll segs []) a := by omega
  obtain ⟨m, hm, hma⟩ := List.countP_pos_iff.1 hen
  have hma : m.getLast? = some a := by simpa using hma
  by_cases hlm : m = l
  · subst hlm
    simp only [isClosed, ha, hma, beq_self_eq_true, Bool.and_true, decide_eq_true_eq]
    omega
  · exfalso
    have : Apart m l := by
      haveI : Std.Symm (Apart (K := K)) := ⟨fun _ _ h => Apart.symm h⟩
      exact hp.forall hm hl hlm
    exact this.1 a hma ha

/-! ## Where segments start -/

/-- The sides of a cell at which a segment starts, given the crossing points. -/
def sideStarts (t : K) (q : MCell K) (left right bottom top : V2 K) : List (V2 K) :=
  (if q.a > t ∧ ¬ q.b > t then [bottom] else []) ++ (if ¬ q.c > t ∧ q.d > t then [top] else []) ++
  (if q.b > t ∧ ¬ q.d > t then [right] else []) ++ (if ¬ q.a > t ∧ q.c > t then [left] else [])

theorem outs_mseg (v0 v1 p : V2 K) : outs (mseg v0 v1) p ≤ [v1].count p := by
  unfold mseg
  split
  · simp [outs]
  · simp [outs]

theorem outs_msegs (a b c p : V2 K) (h : p ≠ b) : outs (msegs a b c) p ≤ [c].count p := by
  unfold msegs
  rw [outs_append]
  have h1 := outs_mseg b c p
  have h2 := outs_mseg a b p
  have h3 : [b].count p = 0 := by
    rw [List.count_eq_zero]
    simp [h]
  omega

theorem outs_soft (t : K) (q : MCell K) (p : V2 K) : outs (softCell t q) p ≤
    (sideStarts t q ⟨q.x0, midlerp q.y0 q.y1 q.a q.c t⟩ ⟨q.x1, midlerp q.y0 q.y1 q.b q.d t⟩ ⟨midlerp q.x0 q.x1 q.a q.b t, q.y0⟩
      ⟨midlerp q.x0 q.x1 q.c q.d t, q.y1⟩).count p := by
  unfold softCell MCell.code sideStarts
  by_cases ha : q.a > t <;> by_cases hb : q.b > t <;> by_cases hc : q.c > t <;> by_cases hd : q.d > t <;>
    simp only [ha, hb, hc, hd, if_true, if_false, Nat.reduceAdd, outs_append, and_true, and_false, true_and, false_and, not_true, not_false_eq_true,
      List.nil_append, List.append_nil, List.count_append] <;>
    first
      | exact outs_mseg _ _ _
      | exact Nat.add_le_add (outs_mseg _ _ _) (outs_mseg _ _ _)
      | (rw [Nat.add_comm]; exact Nat.add_le_add (outs_mseg _ _ _) (outs_mseg _ _ _))
      | simp [outs]

theorem outs_hard (t : K) (q : MCell K) (p : V2 K) (hp : p ≠ ⟨mlerp q.x0 q.x1 (1 / 2), mlerp q.y0 q.y1 (1 / 2)⟩) : outs (hardCell t q) p ≤
    (sideStarts t q ⟨q.x0, mlerp q.y0 q.y1 (1 / 2)⟩ ⟨q.x1, mlerp q.y0 q.y1 (1 / 2)⟩ ⟨mlerp q.x0 q.x1 (1 / 2), q.y0⟩
      ⟨mlerp q.x0 q.x1 (1 / 2), q.y1⟩).count p := by
  unfold hardCell MCell.code sideStarts
  by_cases ha : q.a > t <;> by_cases hb : q.b > t <;> by_cases hc : q.c > t <;> by_cases hd : q.d > t <;>
    simp only [ha, hb, hc, hd, if_true, if_false, Nat.reduceAdd, outs_append, and_true, and_false, true_and, false_and, not_true, not_false_eq_true,
      List.nil_append, List.append_nil, List.count_append] <;>
    first
      | exact outs_mseg _ _ _
      | exact outs_msegs _ _ _ _ hp
      | exact Nat.add_le_add (outs_msegs _ _ _ _ hp) (outs_msegs _ _ _ _ hp)
      | (rw [Nat.add_comm]; exact Nat.add_le_add (outs_msegs _ _ _ _ hp) (outs_msegs _ _ _ _ hp))
      | simp [outs]

variable [IsStrictOrderedRing K]

theorem gridX_lt (bb : BB K) (nx : Nat) (h : 2 ≤ nx) (hb : bb.L < bb.R) {i k : Nat} : gridX bb nx i < gridX bb nx k ↔ i < k := by
  unfold gridX
  have h1 : (0 : K) < ((nx - 1 : Nat) : K) := by rw [Nat.cast_pos]; omega
  have h2 : 0 < bb.R - bb.L := by linarith
  rw [add_lt_add_iff_left, div_lt_div_iff_of_pos_right h1, mul_lt_mul_iff_right₀ h2, Nat.cast_lt]

theorem gridY_lt (bb : BB K) (ny : Nat) (h : 2 ≤ ny) (hb : bb.B < bb.T) {i k : Nat} : gridY bb ny i < gridY bb ny k ↔ i < k := by
  unfold gridY
  have h1 : (0 : K) < ((ny - 1 : Nat) : K) := by rw [Nat.cast_pos]; omega
  have h2 : 0 < bb.T - bb.B := by linarith
  rw [add_lt_add_iff_left, div_lt_div_iff_of_pos_right h1, mul_lt_mul_iff_right₀ h2, Nat.cast_lt]

/-- A strictly increasing sequence: a number lies strictly between two neighbours of at most one place, and members nowhere. -/
theorem between_unique {f : Nat → K} (hf : ∀ i k, f i < f k ↔ i < k) {x : K} {i k : Nat} (h1 : f i < x) (h2 : x < f (i + 1)) (h3 : f k < x)
    (h4 : x < f (k + 1)) : i = k := by
  have a := (hf i (k + 1)).1 (h1.trans h4)
  have b := (hf k (i + 1)).1 (h3.trans h2)
  omega

theorem between_not {f : Nat → K} (hf : ∀ i k, f i < f k ↔ i < k) {i k : Nat} (h1 : f i < f k) (h2 : f k < f (i + 1)) : False := by
  have a := (hf i k).1 h1
  have b := (hf k (i + 1)).1 h2
  omega

theorem eq_of_mono {f : Nat → K} (hf : ∀ i k, f i < f k ↔ i < k) {i k : Nat} (h : f i = f k) : i = k := by
  have a : ¬ i < k := fun hc => absurd ((hf i k).2 hc) (by rw [h]; exact lt_irrefl _)
  have b : ¬ k < i := fun hc => absurd ((hf k i).2 hc) (by rw [h]; exact lt_irrefl _)
  omega

/-- A point where a segment starts in cell `i`, `j`: on one of the four sides, crossed in the right direction. -/
def StartIn (X Y : Nat → K) (S : Nat → Nat → Prop) (i j : Nat) (v : V2 K) : Prop :=
  (v.y = Y j ∧ X i < v.x ∧ v.x < X (i + 1) ∧ S i j ∧ ¬ S (i + 1) j) ∨
  (v.y = Y (j + 1) ∧ X i < v.x ∧ v.x < X (i + 1) ∧ ¬ S i (j + 1) ∧ S (i + 1) (j + 1)) ∨
  (v.x = X (i + 1) ∧ Y j < v.y ∧ v.y < Y (j + 1) ∧ S (i + 1) j ∧ ¬ S (i + 1) (j + 1)) ∨
  (v.x = X i ∧ Y j < v.y ∧ v.y < Y (j + 1) ∧ ¬ S i j ∧ S i (j + 1))

theorem startIn_unique {X Y : Nat → K} (hX : ∀ i k, X i < X k ↔ i < k) (hY : ∀ i k, Y i < Y k ↔ i < k) {S : Nat → Nat → Prop} {i j i' j' : Nat} {v : V2 K}
    (h : StartIn X Y S i j v) (h' : StartIn X Y S i' j' v) : i = i' ∧ j = j' := by
  rcases h with ⟨a1, a2, a3, a4, a5⟩ | ⟨a1, a2, a3, a4, a5⟩ | ⟨a1, a2, a3, a4, a5⟩ | ⟨a1, a2, a3, a4, a5⟩ <;>
  rcases h' with ⟨b1, b2, b3, b4, b5⟩ | ⟨b1, b2, b3, b4, b5⟩ | ⟨b1, b2, b3, b4, b5⟩ | ⟨b1, b2, b3, b4, b5⟩
  · exact ⟨between_unique hX a2 a3 b2 b3, eq_of_mono hY (a1.symm.trans b1)⟩
  · exfalso
    have e1 := between_unique hX a2 a3 b2 b3
    have e2 := eq_of_mono hY (a1.symm.trans b1)
    subst e1; subst e2
    exact b4 a4
  · exact (between_not hY (a1 ▸ b2) (a1 ▸ b3)).elim
  · exact (between_not hY (a1 ▸ b2) (a1 ▸ b3)).elim
  · exfalso
    have e1 := between_unique hX a2 a3 b2 b3
    have e2 := eq_of_mono hY (a1.symm.trans b1)
    subst e1; subst e2
    exact a4 b4
  · have e2 := eq_of_mono hY (a1.symm.trans b1)
    exact ⟨between_unique hX a2 a3 b2 b3, by omega⟩
  · exact (between_not hY (a1 ▸ b2) (a1 ▸ b3)).elim
  · exact (between_not hY (a1 ▸ b2) (a1 ▸ b3)).elim
  · exact (between_not hY (b1 ▸ a2) (b1 ▸ a3)).elim
  · exact (between_not hY (b1 ▸ a2) (b1 ▸ a3)).elim
  · have e2 := eq_of_mono hX (a1.symm.trans b1)
    exact ⟨by omega, between_unique hY a2 a3 b2 b3⟩
  · exfalso
    have e1 := between_unique hY a2 a3 b2 b3
    have e2 := eq_of_mono hX (a1.symm.trans b1)
    subst e1; subst e2
    exact b4 a4
  · exact (between_not hY (b1 ▸ a2) (b1 ▸ a3)).elim
  · exact (between_not hY (b1 ▸ a2) (b1 ▸ a3)).elim
  · exfalso
    have e1 := between_unique hY a2 a3 b2 b3
    have e2 := eq_of_mono hX (a1.symm.trans b1)
    subst e1; subst e2
    exact a4 b4
  · exact ⟨eq_of_mono hX (a1.symm.trans b1), between_unique hY a2 a3 b2 b3⟩

/-- The starts of cell `i`, `j` for crossing functions `hx`. -/
def gridStarts (t : K) (sample : V2 K → K) (bb : BB K) (nx ny : Nat) (hx : K → K → K → K → K) (i j : Nat) : List (V2 K) :=
  let q := gridCell sample bb nx ny i j
  sideStarts t q ⟨q.x0, hx q.y0 q.y1 q.a q.c⟩ ⟨q.x1, hx q.y0 q.y1 q.b q.d⟩ ⟨hx q.x0 q.x1 q.a q.b, q.y0⟩ ⟨hx q.x0 q.x1 q.c q.d, q.y1⟩

/-- The crossing lies strictly inside a side whose ends are on different sides of the threshold. -/
def Crosses (t : K) (sample : V2 K → K) (bb : BB K) (nx ny : Nat) (hx : K → K → K → K → K) : Prop :=
  ∀ (u v : V2 K) (x0 x1 : K), u ∈ gridPoints bb nx ny → v ∈ gridPoints bb nx ny → x0 < x1 → (sample u > t ↔ ¬ sample v > t) →
    x0 < hx x0 x1 (sample u) (sample v) ∧ hx x0 x1 (sample u) (sample v) < x1

theorem mem_gridPoints (bb : BB K) (nx ny i j : Nat) (hi : i < nx) (hj : j < ny) : gridP bb nx ny i j ∈ gridPoints bb nx ny := by
  unfold gridPoints
  exact List.mem_flatMap.2 ⟨j, List.mem_range.2 hj, List.mem_map.2 ⟨i, List.mem_range.2 hi, rfl⟩⟩

theorem gridStarts_in (t : K) (sample : V2 K → K) (bb : BB K) (nx ny : Nat) (hnx : 2 ≤ nx) (hny : 2 ≤ ny) (hx : K → K → K → K → K)
    (hLR : bb.L < bb.R) (hBT : bb.B < bb.T) (hc : Crosses t sample bb nx ny hx) (i j : Nat) (hi : i < nx - 1) (hj : j < ny - 1) :
    (gridStarts t sample bb nx ny hx i j).Nodup ∧ ∀ v ∈ gridStarts t sample bb nx ny hx i j,
      StartIn (gridX bb nx) (gridY bb ny) (fun i j => sample (gridP bb nx ny i j) > t) i j v := by
  have m00 := mem_gridPoints bb nx ny i j (by omega) (by omega)
  have m10 := mem_gridPoints bb nx ny (i + 1) j (by omega) (by omega)
  have m01 := mem_gridPoints bb nx ny i (j + 1) (by omega) (by omega)
  have m11 := mem_gridPoints bb nx ny (i + 1) (j + 1) (by omega) (by omega)
  have hX : gridX bb nx i < gridX bb nx (i + 1) := (gridX_lt bb nx hnx hLR).2 (by omega)
  have hY : gridY bb ny j < gridY bb ny (j + 1) := (gridY_lt bb ny hny hBT).2 (by omega)
  have cb := hc _ _ _ _ m00 m10 hX
  have ct := hc _ _ _ _ m01 m11 hX
  have cl := hc _ _ _ _ m00 m01 hY
  have cr := hc _ _ _ _ m10 m11 hY
  unfold gridStarts sideStarts gridCell
  simp only
  constructor
  · by_cases ha : sample (gridP bb nx ny i j) > t <;> by_cases hb : sample (gridP bb nx ny (i + 1) j) > t <;>
    by_cases hc' : sample (gridP bb nx ny i (j + 1)) > t <;> by_cases hd : sample (gridP bb nx ny (i + 1) (j + 1)) > t <;>
      simp [ha, hb, hc', hd, hX.ne, hX.ne', hY.ne, hY.ne']
  · intro v hv
    unfold StartIn
    simp only [List.mem_append, or_assoc] at hv
    rcases hv with hv | hv | hv | hv
    · split at hv
      · rename_i h
        rw [List.mem_singleton] at hv
        subst hv
        obtain ⟨c1, c2⟩ := cb (by simp only [h.1, h.2, not_false_eq_true])
        exact Or.inl ⟨rfl, c1, c2, h.1, h.2⟩
      · simp at hv
    · split at hv
      · rename_i h
        rw [List.mem_singleton] at hv
        subst hv
        obtain ⟨c1, c2⟩ := ct (by simp only [h.1, h.2, not_true])
        exact Or.inr (Or.inl ⟨rfl, c1, c2, h.1, h.2⟩)
      · simp at hv
    · split at hv
      · rename_i h
        rw [List.mem_singleton] at hv
        subst hv
        obtain ⟨c1, c2⟩ := cr (by simp only [h.1, h.2, not_false_eq_true])
        exact Or.inr (Or.inr (Or.inl ⟨rfl, c1, c2, h.1, h.2⟩))
      · simp at hv
    · split at hv
      · rename_i h
        rw [List.mem_singleton] at hv
        subst hv
        obtain ⟨c1, c2⟩ := cl (by simp only [h.1, h.2, not_true])
        exact Or.inr (Or.inr (Or.inr ⟨rfl, c1, c2, h.1, h.2⟩))
      · simp at hv

/-- All starts on sides of cells are different points. -/
theorem gridStarts_nodup (t : K) (sample : V2 K → K) (bb : BB K) (nx ny : Nat) (hnx : 2 ≤ nx) (hny : 2 ≤ ny) (hx : K → K → K → K → K)
    (hLR : bb.L < bb.R) (hBT : bb.B < bb.T) (hc : Crosses t sample bb nx ny hx) :
    ((List.range (ny - 1)).flatMap fun j => (List.range (nx - 1)).flatMap fun i => gridStarts t sample bb nx ny hx i j).Nodup := by
  have hX : ∀ i k, gridX bb nx i < gridX bb nx k ↔ i < k := fun i k => gridX_lt bb nx hnx hLR
  have hY : ∀ i k, gridY bb ny i < gridY bb ny k ↔ i < k := fun i k => gridY_lt bb ny hny hBT
  have hin := gridStarts_in t sample bb nx ny hnx hny hx hLR hBT hc
  rw [List.nodup_flatMap]
  refine ⟨fun j hj => ?_, ?_⟩
  · rw [List.mem_range] at hj
    rw [List.nodup_flatMap]
    refine ⟨fun i hi => (hin i j (List.mem_range.1 hi) hj).1, ?_⟩
    refine List.Nodup.pairwise_of_forall_ne List.nodup_range fun i hi k hk hik => ?_
    intro v hv hv'
    exact hik (startIn_unique hX hY ((hin i j (List.mem_range.1 hi) hj).2 v hv) ((hin k j (List.mem_range.1 hk) hj).2 v hv')).1
  · refine List.Nodup.pairwise_of_forall_ne List.nodup_range fun j hj k hk hjk => ?_
    intro v hv hv'
    obtain ⟨i, hi, hv⟩ := List.mem_flatMap.1 hv
    obtain ⟨i', hi', hv'⟩ := List.mem_flatMap.1 hv'
    rw [List.mem_range] at *
    exact hjk (startIn_unique hX hY ((hin i j hi hj).2 v hv) ((hin i' k hi' hk).2 v hv')).2

theorem outs_flatMap_le {α : Type} (l : List α) (f : α → List (V2 K × V2 K)) (g : α → List (V2 K)) (p : V2 K)
    (h : ∀ x ∈ l, outs (f x) p ≤ (g x).count p) : outs (l.flatMap f) p ≤ (l.flatMap g).count p := by
  induction l with
  | nil => simp [outs]
  | cons a l ih =>
    rw [List.flatMap_cons, List.flatMap_cons, outs_append, List.count_append]
    exact Nat.add_le_add (h a (by simp)) (ih fun x hx => h x (by simp [hx]))

/-- A point starts at most one segment, if within every cell it starts no more than the sides say. -/
theorem outs_grid_le (t : K) (sample : V2 K → K) (bb : BB K) (nx ny : Nat) (hnx : 2 ≤ nx) (hny : 2 ≤ ny) (hx : K → K → K → K → K)
    (hLR : bb.L < bb.R) (hBT : bb.B < bb.T) (hc : Crosses t sample bb nx ny hx) (cell : MCell K → List (V2 K × V2 K)) (p : V2 K)
    (hp : ∀ i j, i < nx - 1 → j < ny - 1 → outs (cell (gridCell sample bb nx ny i j)) p ≤ (gridStarts t sample bb nx ny hx i j).count p) :
    outs ((gridCells sample bb nx ny).flatMap cell) p ≤ 1 := by
  refine le_trans ?_ (List.nodup_iff_count_le_one.1 (gridStarts_nodup t sample bb nx ny hnx hny hx hLR hBT hc) p)
  unfold gridCells
  rw [List.flatMap_assoc]
  refine outs_flatMap_le _ _ _ _ fun j hj => ?_
  rw [List.flatMap_map]
  exact outs_flatMap_le _ _ _ _ fun i hi => hp i j (List.mem_range.1 hi) (List.mem_range.1 hj)

theorem midlerp_between (x0 x1 s u t : K) (hx : x0 < x1) (h : (s > t ∧ u < t) ∨ (s < t ∧ u > t)) :
    x0 < midlerp x0 x1 s u t ∧ midlerp x0 x1 s u t < x1 := by
  unfold midlerp mlerp
  set r := (t - s) / (u - s) with hr
  have h0 : 0 < r ∧ r < 1 := by
    rcases h with ⟨h1, h2⟩ | ⟨h1, h2⟩
    · refine ⟨div_pos_of_neg_of_neg (by linarith) (by linarith), ?_⟩
      rw [hr, div_lt_one_of_neg (by linarith)]
      linarith
    · refine ⟨div_pos (by linarith) (by linarith), ?_⟩
      rw [hr, div_lt_one (by linarith)]
      linarith
  constructor <;> nlinarith [h0.1, h0.2]

theorem mlerp_half_between (x0 x1 : K) (hx : x0 < x1) : x0 < mlerp x0 x1 (1 / 2) ∧ mlerp x0 x1 (1 / 2) < x1 := by
  unfold mlerp
  constructor <;> linarith

/-- **C83.** If no border sample is above the threshold and no sample is exactly at it, collecting the segments of `MarchSoft` gives closed
polylines only. -/
theorem C83_soft (sample : V2 K → K) (bb : BB K) (nx ny : Nat) (hnx : 2 ≤ nx) (hny : 2 ≤ ny) (t : K) (hLR : bb.L < bb.R) (hBT : bb.B < bb.T)
    (h : BorderBelow sample bb nx ny t) (hne : ∀ u ∈ gridPoints bb nx ny, sample u ≠ t) :
    ∀ l ∈ collectAll (marchSoft sample bb nx ny t) [], isClosed l = true := by
  refine C81_closed _ (fun p => ?_) fun p => (C55_everywhere sample bb nx ny hnx hny t h p).1
  unfold marchSoft
  rw [(C56_cells sample bb nx ny hnx hny).1]
  refine outs_grid_le t sample bb nx ny hnx hny (fun a b s u => midlerp a b s u t) hLR hBT ?_ _ p fun i j _ _ => outs_soft t _ p
  intro u v x0 x1 hu hv hx hs
  apply midlerp_between _ _ _ _ _ hx
  rcases lt_trichotomy (sample u) t with h1 | h1 | h1
  · right
    refine ⟨h1, ?_⟩
    by_contra hc
    exact absurd (hs.2 hc) (not_lt.2 h1.le)
  · exact absurd h1 (hne u hu)
  · left
    exact ⟨h1, lt_of_le_of_ne (not_lt.1 (hs.1 h1)) (hne v hv)⟩

/-! ## Centres of hard cells are only passed -/

theorem passing_append {a b : List (V2 K × V2 K)} {v : V2 K} (ha : Passing a v) (hb : Passing b v) (he : outs a v = ins a v) : Passing (a ++ b) v := by
  intro pre w post hs
  rw [List.append_eq_append_iff] at hs
  rcases hs with ⟨c, rfl, hc⟩ | ⟨c, hc, hd⟩
  · have := hb c w post hc
    rw [outs_append, ins_append]
    omega
  · cases c with
    | nil =>
      simp at hc hd
      subst hc
      have := hb [] w post (by simpa using hd.symm)
      simp [outs, ins] at this
    | cons s c =>
      simp only [List.cons_append, List.cons.injEq] at hd
      obtain ⟨rfl, rfl⟩ := hd
      exact ha pre w c hc

theorem passing_nil (v : V2 K) : Passing ([] : List (V2 K × V2 K)) v := by
  intro pre w post h
  simp at h

theorem passing_flatMap {α : Type} (l : List α) (f : α → List (V2 K × V2 K)) (v : V2 K) (h : ∀ x ∈ l, Passing (f x) v ∧ outs (f x) v = ins (f x) v) :
    Passing (l.flatMap f) v := by
  induction l with
  | nil => exact passing_nil v
  | cons a l ih =>
    rw [List.flatMap_cons]
    exact passing_append (h a (by simp)).1 (ih fun x hx => h x (by simp [hx])) (h a (by simp)).2

/-- A point that starts nothing is passed. -/
theorem passing_of_no_start (l : List (V2 K × V2 K)) (v : V2 K) (h : ∀ s ∈ l, s.1 ≠ v) : Passing l v := by
  intro pre w post hs
  exact absurd rfl (h (v, w) (by rw [hs]; simp))

theorem passing_mseg (a b v : V2 K) (hb : b ≠ v) : Passing (mseg a b) v := by
  apply passing_of_no_start
  unfold mseg
  split <;> simp [hb]

theorem passing_msegs (a b c : V2 K) (ha : a ≠ b) (hc : c ≠ b) : Passing (msegs a b c) b := by
  unfold msegs mseg
  rw [if_neg (fun e => hc e.symm), if_neg ha]
  intro pre w post hs
  match pre with
  | [] => simp at hs; exact absurd hs.1.1 hc
  | [x] =>
    simp at hs
    obtain ⟨rfl, -⟩ := hs
    simp [outs, ins, hc]
  | x :: y :: pre => simp at hs

theorem outs_eq_of_bal {l : List (V2 K × V2 K)} {v : V2 K} (h : bal l v = 0) : outs l v = ins l v := by
  unfold bal at h
  omega

/-- In its own cell the centre is passed, and balanced. -/
theorem hard_centre (t : K) (q : MCell K) (hx : q.x0 < q.x1) (hy : q.y0 < q.y1) :
    Passing (hardCell t q) ⟨mlerp q.x0 q.x1 (1 / 2), mlerp q.y0 q.y1 (1 / 2)⟩ := by
  obtain ⟨x1, x2⟩ := mlerp_half_between q.x0 q.x1 hx
  obtain ⟨y1, y2⟩ := mlerp_half_between q.y0 q.y1 hy
  unfold hardCell
  simp only
  generalize mlerp q.x0 q.x1 (1 / 2) = xm at *
  generalize mlerp q.y0 q.y1 (1 / 2) = ym at *
  have el : (⟨q.x0, ym⟩ : V2 K) ≠ ⟨xm, ym⟩ := fun e => x1.ne (congrArg V2.x e)
  have er : (⟨q.x1, ym⟩ : V2 K) ≠ ⟨xm, ym⟩ := fun e => x2.ne' (congrArg V2.x e)
  have eb : (⟨xm, q.y0⟩ : V2 K) ≠ ⟨xm, ym⟩ := fun e => y1.ne (congrArg V2.y e)
  have et : (⟨xm, q.y1⟩ : V2 K) ≠ ⟨xm, ym⟩ := fun e => y2.ne' (congrArg V2.y e)
  have hb : ∀ a c : V2 K, a ≠ ⟨xm, ym⟩ → c ≠ ⟨xm, ym⟩ → outs (msegs a ⟨xm, ym⟩ c) ⟨xm, ym⟩ = ins (msegs a ⟨xm, ym⟩ c) ⟨xm, ym⟩ := by
    intro a c ha hc
    apply outs_eq_of_bal
    rw [bal_msegs, dlt_ne ha, dlt_ne hc, sub_self]
  split
  · exact passing_msegs _ _ _ el eb
  · exact passing_msegs _ _ _ eb er
  · exact passing_mseg _ _ _ er
  · exact passing_msegs _ _ _ et el
  · exact passing_mseg _ _ _ eb
  · exact passing_append (passing_msegs _ _ _ eb el) (passing_msegs _ _ _ et er) (hb _ _ eb el)
  · exact passing_msegs _ _ _ et er
  · exact passing_msegs _ _ _ er et
  · exact passing_append (passing_msegs _ _ _ er eb) (passing_msegs _ _ _ el et) (hb _ _ er eb)
  · exact passing_mseg _ _ _ et
  · exact passing_msegs _ _ _ el et
  · exact passing_mseg _ _ _ el
  · exact passing_msegs _ _ _ er eb
  · exact passing_msegs _ _ _ eb el
  · exact passing_nil _

/-- Every segment of a hard cell starts and ends at the centre or at the middle of a side, so in the closed cell, and on a side unless at the
centre. -/
theorem hard_where (t : K) (q : MCell K) (hx : q.x0 < q.x1) (hy : q.y0 < q.y1) : ∀ s ∈ hardCell t q, ∀ v, (v = s.1 ∨ v = s.2) →
    v = ⟨mlerp q.x0 q.x1 (1 / 2), mlerp q.y0 q.y1 (1 / 2)⟩ ∨ v.x = q.x0 ∨ v.x = q.x1 ∨ v.y = q.y0 ∨ v.y = q.y1 := by
  have hm : ∀ (a b : V2 K) (P : V2 K → Prop), P a → P b → ∀ s ∈ mseg a b, ∀ v, (v = s.1 ∨ v = s.2) → P v := by
    intro a b P ha hb s hs v hv
    unfold mseg at hs
    split at hs
    · simp at hs
    · simp at hs
      subst hs
      rcases hv with rfl | rfl
      · exact hb
      · exact ha
  have hm2 : ∀ (a b c : V2 K) (P : V2 K → Prop), P a → P b → P c → ∀ s ∈ msegs a b c, ∀ v, (v = s.1 ∨ v = s.2) → P v := by
    intro a b c P ha hb hc s hs v hv
    unfold msegs at hs
    rcases List.mem_append.1 hs with hs | hs
    · exact hm b c P hb hc s hs v hv
    · exact hm a b P ha hb s hs v hv
  intro s hs v hv
  set P : V2 K → Prop := fun v => v = ⟨mlerp q.x0 q.x1 (1 / 2), mlerp q.y0 q.y1 (1 / 2)⟩ ∨ v.x = q.x0 ∨ v.x = q.x1 ∨ v.y = q.y0 ∨ v.y = q.y1 with hP
  show P v
  unfold hardCell at hs
  simp only at hs
  split at hs <;>
    first
      | exact hm _ _ P (by simp [hP]) (by simp [hP]) s hs v hv
      | exact hm2 _ _ _ P (by simp [hP]) (by simp [hP]) (by simp [hP]) s hs v hv
      | (rcases List.mem_append.1 hs with hs | hs <;> exact hm2 _ _ _ P (by simp [hP]) (by simp [hP]) (by simp [hP]) s hs v hv)
      | simp at hs

/-- **C83.** If no border sample is above the threshold, collecting the segments of `MarchHard` gives closed polylines only, whatever the
samples. -/
theorem C83_hard (sample : V2 K → K) (bb : BB K) (nx ny : Nat) (hnx : 2 ≤ nx) (hny : 2 ≤ ny) (t : K) (hLR : bb.L < bb.R) (hBT : bb.B < bb.T)
    (h : BorderBelow sample bb nx ny t) : ∀ l ∈ collectAll (marchHard sample bb nx ny t) [], isClosed l = true := by
  have hX : ∀ i k, gridX bb nx i < gridX bb nx k ↔ i < k := fun i k => gridX_lt bb nx hnx hLR
  have hY : ∀ i k, gridY bb ny i < gridY bb ny k ↔ i < k := fun i k => gridY_lt bb ny hny hBT
  have hXs : ∀ i, gridX bb nx i < gridX bb nx (i + 1) := fun i => (hX _ _).2 (by omega)
  have hYs : ∀ i, gridY bb ny i < gridY bb ny (i + 1) := fun i => (hY _ _).2 (by omega)
  refine C81_passing _ (fun p => ?_) fun p => (C55_everywhere sample bb nx ny hnx hny t h p).2
  unfold marchHard
  rw [(C56_cells sample bb nx ny hnx hny).1]
  set ctr : Nat → Nat → V2 K := fun i j => ⟨mlerp (gridX bb nx i) (gridX bb nx (i + 1)) (1 / 2), mlerp (gridY bb ny j) (gridY bb ny (j + 1)) (1 / 2)⟩
    with hctr
  by_cases hp : ∃ i j, p = ctr i j
  · right
    obtain ⟨i, j, rfl⟩ := hp
    obtain ⟨x1, x2⟩ := mlerp_half_between _ _ (hXs i)
    obtain ⟨y1, y2⟩ := mlerp_half_between _ _ (hYs j)
    unfold gridCells
    rw [List.flatMap_assoc]
    have hcell : ∀ i' j', Passing (hardCell t (gridCell sample bb nx ny i' j')) (ctr i j) ∧
        outs (hardCell t (gridCell sample bb nx ny i' j')) (ctr i j) = ins (hardCell t (gridCell sample bb nx ny i' j')) (ctr i j) := by
      intro i' j'
      have hbal : bal (hardCell t (gridCell sample bb nx ny i' j')) (ctr i j) = 0 := by
        rw [bal_hard_grid]
        have nx' : ∀ k, gridX bb nx k ≠ (ctr i j).x := by
          intro k e
          have e' : gridX bb nx k = mlerp (gridX bb nx i) (gridX bb nx (i + 1)) (1 / 2) := e
          rw [← e'] at x1 x2
          exact between_not hX x1 x2
        have ny' : ∀ k, gridY bb ny k ≠ (ctr i j).y := by
          intro k e
          have e' : gridY bb ny k = mlerp (gridY bb ny j) (gridY bb ny (j + 1)) (1 / 2) := e
          rw [← e'] at y1 y2
          exact between_not hY y1 y2
        simp only [sideH, sideV]
        rw [dlt_ne (fun e => ny' _ (congrArg V2.y e)), dlt_ne (fun e => ny' _ (congrArg V2.y e)), dlt_ne (fun e => nx' _ (congrArg V2.x e)),
          dlt_ne (fun e => nx' _ (congrArg V2.x e))]
        ring
      refine ⟨?_, outs_eq_of_bal hbal⟩
      by_cases hij : i' = i ∧ j' = j
      · obtain ⟨rfl, rfl⟩ := hij
        exact hard_centre t (gridCell sample bb nx ny i' j') (hXs i') (hYs j')
      · apply passing_of_no_start
        intro s hs e
        rcases hard_where t (gridCell sample bb nx ny i' j') (hXs i') (hYs j') s hs (ctr i j) (Or.inl e.symm) with h1 | h1 | h1 | h1 | h1
        · obtain ⟨x1', x2'⟩ := mlerp_half_between _ _ (hXs i')
          obtain ⟨y1', y2'⟩ := mlerp_half_between _ _ (hYs j')
          have ex := congrArg V2.x h1
          have ey := congrArg V2.y h1
          simp only [hctr, gridCell] at ex ey
          rw [← ex] at x1' x2'
          rw [← ey] at y1' y2'
          exact hij ⟨between_unique hX x1' x2' x1 x2, between_unique hY y1' y2' y1 y2⟩
        · simp only [hctr, gridCell] at h1
          rw [h1] at x1 x2
          exact between_not hX x1 x2
        · simp only [hctr, gridCell] at h1
          rw [h1] at x1 x2
          exact between_not hX x1 x2
        · simp only [hctr, gridCell] at h1
          rw [h1] at y1 y2
          exact between_not hY y1 y2
        · simp only [hctr, gridCell] at h1
          rw [h1] at y1 y2
          exact between_not hY y1 y2
    refine passing_flatMap _ _ _ fun j' _ => ?_
    rw [List.flatMap_map]
    refine ⟨passing_flatMap _ _ _ fun i' _ => hcell i' j', outs_eq_of_bal ?_⟩
    rw [bal_flatMap_range]
    apply rsum_zero
    intro i' _
    have := (hcell i' j').2
    unfold bal
    omega
  · left
    refine outs_grid_le t sample bb nx ny hnx hny (fun a b _ _ => mlerp a b (1 / 2)) hLR hBT ?_ _ p fun i j _ _ => outs_hard t _ p ?_
    · intro u v x0 x1 _ _ hx _
      exact mlerp_half_between x0 x1 hx
    · intro e
      exact hp ⟨i, j, e⟩

/-- **C56.** The sampled points are pairwise different, if the box has positive width and height. -/
theorem C56_points_nodup (bb : BB K) (nx ny : Nat) (hnx : 2 ≤ nx) (hny : 2 ≤ ny) (hLR : bb.L < bb.R) (hBT : bb.B < bb.T) :
    (gridPoints bb nx ny).Nodup := by
  have hX : ∀ i k, gridX bb nx i < gridX bb nx k ↔ i < k := fun i k => gridX_lt bb nx hnx hLR
  have hY : ∀ i k, gridY bb ny i < gridY bb ny k ↔ i < k := fun i k => gridY_lt bb ny hny hBT
  unfold gridPoints
  rw [List.nodup_flatMap]
  refine ⟨fun j _ => ?_, ?_⟩
  · refine List.Nodup.map_on (fun i _ k _ e => ?_) List.nodup_range
    exact eq_of_mono hX (congrArg V2.x e)
  · refine List.Nodup.pairwise_of_forall_ne List.nodup_range fun j _ k _ hjk => ?_
    intro v hv hv'
    obtain ⟨i, _, rfl⟩ := List.mem_map.1 hv
    obtain ⟨i', _, e⟩ := List.mem_map.1 hv'
    exact hjk (eq_of_mono hY (congrArg V2.y e)).symm

/-- Two diagonal bumps, a saddle between them: the border is below the threshold and no sample is at it. -/
def exBumps (p : V2 ℚ) : ℚ := if p = ⟨1, 1⟩ ∨ p = ⟨2, 2⟩ then 1 else 0

example : BorderBelow exBumps ⟨0, 0, 3, 3⟩ 4 4 (1 / 2) ∧ (∀ u ∈ gridPoints (⟨0, 0, 3, 3⟩ : BB ℚ) 4 4, exBumps u ≠ 1 / 2) ∧
    (collectAll (marchSoft exBumps ⟨0, 0, 3, 3⟩ 4 4 (1 / 2)) []).length = 2 ∧ (collectAll (marchHard exBumps ⟨0, 0, 3, 3⟩ 4 4 (1 / 2)) []).length = 1 := by
  refine ⟨?_, by decide +kernel, by decide +kernel, by decide +kernel⟩
  have : ∀ i < 4, ∀ j < 4, (i = 0 ∨ j = 0 ∨ i = 4 - 1 ∨ j = 4 - 1) → exBumps (gridP (⟨0, 0, 3, 3⟩ : BB ℚ) 4 4 i j) ≤ 1 / 2 := by decide +kernel
  exact fun i j hi hj h => this i hi j hj h

end Cm
