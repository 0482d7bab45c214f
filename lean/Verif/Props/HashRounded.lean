import Verif.Props.SpaceHash
import Verif.Props.ToothLost

/-!
# C141: the spatial hash in rounded arithmetic

The hash computes with numbers in one place only: each bound of a box is divided by the size of the cells and the quotient is
rounded before its floor is taken.
-/

set_option linter.unusedSectionVars false
set_option linter.unusedSimpArgs false
set_option linter.unusedVariables false

namespace Cm
open Hash Spec

section
variable {K : Type} [Field K] [LinearOrder K] [FloorRing K]

/-- The cells visited for a box when the quotients are rounded: space_hash.go:48-56, 177-184, 208-218. The integers are not
bounded, so a quotient beyond the range of `int` is not modelled. -/
def Hash.cellsR (R : Rounding K) (dim : K) (n : Nat) (bb : BB K) : List Nat :=
  (span (goFloor (R.r (bb.L / dim))) (goFloor (R.r (bb.R / dim)))).flatMap fun i =>
    (span (goFloor (R.r (bb.B / dim))) (goFloor (R.r (bb.T / dim)))).map fun j => hashFunc i j n

/-- The calls of `HOp.run` with rounded quotients: space_hash.go:86-132, 169-265. -/
def HOp.runR (R : Rounding K) (dim : K) (s : St) : HOp K → Option St
  | .insert x h bb => some (Hash.insert s x h (cellsR R dim s.n bb))
  | .remove x => some (Hash.remove s x)
  | .move x h bb => some (reindexObject s x h (cellsR R dim s.n bb))
  | .query obj bb => (Hash.query s obj (cellsR R dim s.n bb)).map (·.1)
  | .update bb order => (reindexQuery s (fun x => cellsR R dim s.n (bb x)) order).map (·.1)

/-- Several calls, each allowed when made; the state they end in. -/
inductive HashedR (R : Rounding K) (dim : K) (n : Nat) : List (HOp K) → St → Prop
  | nil : HashedR R dim n [] (Hash.empty n)
  | snoc {ops : List (HOp K)} {s t : St} {o : HOp K} : HashedR R dim n ops s → o.Ok (boxes ops) s → o.runR R dim s = some t →
      HashedR R dim n (ops ++ [o]) t

end

variable {K : Type} [Field K] [LinearOrder K] [IsStrictOrderedRing K] [FloorRing K]

/-! ### The same as the exact hash with boxes counted in cells -/

/-- The box in units of cells, rounded. -/
def Spec.Rounding.inCells (R : Rounding K) (dim : K) (bb : BB K) : BB K := ⟨R.r (bb.L / dim), R.r (bb.B / dim), R.r (bb.R / dim), R.r (bb.T / dim)⟩

/-- The call with other boxes. -/
def HOp.mapBB (f : BB K → BB K) : HOp K → HOp K
  | .insert x h bb => .insert x h (f bb)
  | .remove x => .remove x
  | .move x h bb => .move x h (f bb)
  | .query obj bb => .query obj (f bb)
  | .update bb order => .update (fun x => f (bb x)) order

theorem cellsR_eq (R : Rounding K) (dim : K) (n : Nat) (bb : BB K) : cellsR R dim n bb = cells 1 n (R.inCells dim bb) := by
  simp [cellsR, cells, Rounding.inCells]

theorem runR_eq (R : Rounding K) (dim : K) (s : St) (o : HOp K) : o.runR R dim s = (o.mapBB (R.inCells dim)).run 1 s := by
  cases o <;> simp [HOp.runR, HOp.run, HOp.mapBB, cellsR_eq]

theorem boxes1_map (f : BB K → BB K) (B : Nat → Option (BB K)) (o : HOp K) :
    boxes1 (fun x => (B x).map f) (o.mapBB f) = fun x => (boxes1 B o x).map f := by
  funext y
  cases o <;> simp only [boxes1, HOp.mapBB] <;> try split <;> simp_all [Option.map_map, Function.comp_def]
  all_goals simp [Option.map_map, Function.comp_def]

theorem boxes_map (f : BB K → BB K) (ops : List (HOp K)) : boxes (ops.map (HOp.mapBB f)) = fun x => (boxes ops x).map f := by
  induction ops using List.reverseRecOn with
  | nil => rfl
  | append_singleton l o ih =>
    have e1 : ∀ (l : List (HOp K)) (o : HOp K), boxes (l ++ [o]) = boxes1 (boxes l) o := by intro l o; simp [boxes]
    rw [List.map_append, List.map_singleton, e1, ih, boxes1_map, e1]

theorem ok_map (f : BB K → BB K) (B : Nat → Option (BB K)) (s : St) (o : HOp K) (h : o.Ok B s) : (o.mapBB f).Ok (fun x => (B x).map f) s := by
  cases o <;> simp only [HOp.Ok, HOp.mapBB, ne_eq, Option.map_eq_none_iff] at h ⊢ <;> exact h

theorem HashedR.exact {R : Rounding K} {dim : K} {n : Nat} {ops : List (HOp K)} {s : St} (h : HashedR R dim n ops s) :
    Hashed 1 n (ops.map (HOp.mapBB (R.inCells dim))) s := by
  induction h with
  | nil => exact .nil
  | snoc _ ho hr ih =>
    rw [List.map_append]
    refine .snoc ih ?_ (by rw [← runR_eq]; exact hr)
    rw [boxes_map]
    exact ok_map _ _ _ _ ho

/-! ### Nothing is missed -/

theorem quot_mono (R : Rounding K) {dim a b : K} (hd : 0 < dim) (h : a ≤ b) : R.r (a / dim) ≤ R.r (b / dim) :=
  R.mono _ _ (div_le_div_of_nonneg_right h hd.le)

theorem inCells_proper (R : Rounding K) {dim : K} (hd : 0 < dim) {b : BB K} (h : Proper b) : Proper (R.inCells dim b) :=
  ⟨quot_mono R hd h.1, quot_mono R hd h.2⟩

theorem inCells_intersects (R : Rounding K) {dim : K} (hd : 0 < dim) {a b : BB K} (h : a.intersects b = true) :
    (R.inCells dim a).intersects (R.inCells dim b) = true := by
  simp only [BB.intersects, Bool.and_eq_true, decide_eq_true_eq] at h ⊢
  obtain ⟨⟨⟨h1, h2⟩, h3⟩, h4⟩ := h
  exact ⟨⟨⟨quot_mono R hd h1, quot_mono R hd h2⟩, quot_mono R hd h3⟩, quot_mono R hd h4⟩

/-- Every call is possible and ends in a state of the hash again: no history of calls in rounded arithmetic goes wrong. -/
theorem C141_total (R : Rounding K) {dim : K} {n : Nat} (hn : 0 < n) {ops : List (HOp K)} {s : St} (h : HashedR R dim n ops s) (o : HOp K)
    (ho : o.Ok (boxes ops) s) : ∃ t, o.runR R dim s = some t ∧ HashedR R dim n (ops ++ [o]) t := by
  obtain ⟨t, e, _⟩ := C57_total hn h.exact (o.mapBB (R.inCells dim)) (by rw [boxes_map]; exact ok_map _ _ _ _ ho)
  rw [← runR_eq] at e
  exact ⟨t, e, .snoc h ho e⟩

/-- A box query in rounded arithmetic reports no shape twice, and reports every other shape whose box meets the box asked
about. -/
theorem C141_query (R : Rounding K) {dim : K} {n : Nat} (hn : 0 < n) (hd : 0 < dim) {ops : List (HOp K)} {s : St} (h : HashedR R dim n ops s)
    (obj : Option Nat) (q : BB K) (hq : Proper q) :
    ∃ t o, Hash.query s obj (cellsR R dim s.n q) = some (t, o) ∧ o.Nodup ∧ (∀ x ∈ o, some x ≠ obj ∧ boxes ops x ≠ none) ∧
      ∀ x b, boxes ops x = some b → Proper b → b.intersects q = true → some x ≠ obj → x ∈ o := by
  obtain ⟨t, o, e, nd, hm, hc⟩ := C57_query hn h.exact obj (R.inCells dim q)
  refine ⟨t, o, by rw [cellsR_eq]; exact e, nd, fun x hx => ?_, fun x b hb hp hi hne => ?_⟩
  · obtain ⟨h1, b, h2, _⟩ := (hm x).1 hx
    rw [boxes_map] at h2
    exact ⟨h1, fun hc => by simp [hc] at h2⟩
  · exact hc one_pos (inCells_proper R hd hq) x _ (by rw [boxes_map]; simp [hb]) (inCells_proper R hd hp) (inCells_intersects R hd hi) hne

/-- The collision query in rounded arithmetic pairs nothing with itself, reports no pair twice or in both orders, and reports
each two shapes whose boxes meet. -/
theorem C141_pairs (R : Rounding K) {dim : K} {n : Nat} (hn : 0 < n) (hd : 0 < dim) {ops : List (HOp K)} {s : St} (h : HashedR R dim n ops s)
    (bb : Nat → BB K) (order : List Nat) (ho : order.Perm s.set) :
    ∃ t P, reindexQuery s (fun x => cellsR R dim s.n (bb x)) order = some (t, P) ∧ (∀ x, (x, x) ∉ P) ∧
      (∀ x y, x ≠ y → P.count (x, y) + P.count (y, x) ≤ 1) ∧
      ∀ x y, x ≠ y → boxes ops x ≠ none → boxes ops y ≠ none → Proper (bb x) → Proper (bb y) → (bb x).intersects (bb y) = true →
        P.count (x, y) + P.count (y, x) = 1 := by
  obtain ⟨t, P, e, hs, h1, h2⟩ := C57_pairs hn h.exact (fun x => R.inCells dim (bb x)) order ho
  refine ⟨t, P, by simp only [cellsR_eq]; exact e, hs, fun x y hxy => ?_, fun x y hxy hx hy px py hi => ?_⟩
  · rw [h1 x y hxy]; split <;> omega
  · exact h2 one_pos x y hxy (by rw [boxes_map]; simpa using hx) (by rw [boxes_map]; simpa using hy) (inCells_proper R hd px) (inCells_proper R hd py)
      (inCells_intersects R hd hi)

/-- The collisions with the static hash in rounded arithmetic: no pair is reported twice, and each shape of the dynamic index
is paired with every static shape whose box meets its own. -/
theorem C141_static (R : Rounding K) {dim : K} {n : Nat} (hn : 0 < n) (hd : 0 < dim) {ops : List (HOp K)} {s : St} (h : HashedR R dim n ops s)
    (bb : Nat → BB K) (xs : List Nat) (hx : xs.Nodup) (hs : ∀ x ∈ xs, boxes ops x = none) :
    ∃ t P, collideStatic (fun x => cellsR R dim n (bb x)) xs s = some (t, P) ∧ P.Nodup ∧ (∀ x y, (x, y) ∈ P → x ∈ xs ∧ boxes ops y ≠ none) ∧
      ∀ x ∈ xs, ∀ y b, boxes ops y = some b → Proper b → Proper (bb x) → b.intersects (bb x) = true → (x, y) ∈ P := by
  obtain ⟨H, F, hn'⟩ := h.exact.ok hn
  obtain ⟨t, P, e, nd, hm⟩ := C57_static hn (fun x => R.inCells dim (bb x)) xs s _ H F hn' hx (by intro x hx; rw [boxes_map]; simp [hs x hx])
  refine ⟨t, P, by simp only [cellsR_eq]; exact e, nd, fun x y hp => ?_, fun x hx y b hb pb px hi => ?_⟩
  · obtain ⟨h1, b, h2, _⟩ := (hm x y).1 hp
    rw [boxes_map] at h2
    exact ⟨h1, fun hc => by simp [hc] at h2⟩
  · refine (hm x y).2 ⟨hx, R.inCells dim b, by rw [boxes_map]; simp [hb], ?_⟩
    obtain ⟨i, j, k1, k2⟩ := intersects_cell one_pos (inCells_proper R hd pb) (inCells_proper R hd px) (inCells_intersects R hd hi)
    exact ⟨i, j, i, j, k1, k2, rfl⟩

/-! ### What rounding changes -/

/-- In `float64` a bound falls in its own cell or, when its quotient is rounded up to a whole number, in the next one. -/
theorem C141_cell {x dim : ℚ} (h : |⌊x / dim⌋| < 2 ^ 53 - 1) :
    goFloor (binary64.r (x / dim)) = ⌊x / dim⌋ ∨ goFloor (binary64.r (x / dim)) = ⌊x / dim⌋ + 1 ∧ binary64.r (x / dim) = (⌊x / dim⌋ + 1 : ℤ) := by
  rw [goFloor_eq]
  generalize x / dim = q at *
  obtain ⟨a1, a2⟩ := abs_lt.1 h
  have e1 := round_int (z := ⌊q⌋) (abs_lt.2 ⟨by omega, by omega⟩)
  have e2 := round_int (z := ⌊q⌋ + 1) (abs_lt.2 ⟨by omega, by omega⟩)
  have l1 := binary64.mono _ _ (Int.floor_le q)
  have l2 := binary64.mono q ((⌊q⌋ + 1 : ℤ) : ℚ) (by push_cast; exact (Int.lt_floor_add_one q).le)
  rw [e1] at l1
  rw [e2] at l2
  rcases lt_or_eq_of_le l2 with h3 | h3
  · left
    rw [Int.floor_eq_iff]
    push_cast at h3
    exact ⟨l1, h3⟩
  · right
    rw [h3, Int.floor_intCast]
    exact ⟨rfl, rfl⟩

/-- The second case happens: 0.5 lies in the cell number 4 of a grid of size 0.1, the float nearest a tenth being a little
more; the code puts it in the cell number 5. -/
theorem C141_next : ∃ x dim : ℚ, binary64.r x = x ∧ binary64.r dim = dim ∧ ⌊x / dim⌋ = 4 ∧ goFloor (binary64.r (x / dim)) = 5 :=
  ⟨1/2, 3602879701896397/36028797018963968, by decide +kernel⟩

/-- So a box from 0.5 on is not filed in the cell holding its left side, and a point query with the exact quotient would miss
it; with both quotients rounded it is found. -/
theorem C141_consistent : ∃ dim : ℚ, ∃ b : BB ℚ, binary64.r dim = dim ∧
    cellsR binary64 dim 101 b ≠ cells dim 101 b ∧ (∀ k ∈ cells dim 101 ⟨b.L, b.B, b.L, b.B⟩, k ∉ cellsR binary64 dim 101 b) ∧
    (∀ k ∈ cellsR binary64 dim 101 ⟨b.L, b.B, b.L, b.B⟩, k ∈ cellsR binary64 dim 101 b) :=
  ⟨3602879701896397/36028797018963968, ⟨1/2, 0, 3/5, 1/20⟩, by decide +kernel⟩

/-- A history: two shapes filed in a grid of size 0.1. -/
def exHashOps : List (HOp ℚ) := [.insert 7 0 ⟨1/2, 0, 3/5, 1/20⟩, .insert 8 1 ⟨1/4, 0, 1/2, 1/8⟩]

example : ∃ s, HashedR binary64 (3602879701896397/36028797018963968) 101 exHashOps s ∧ boxes exHashOps 7 = some ⟨1/2, 0, 3/5, 1/20⟩ ∧
    Proper (⟨1/2, 0, 3/5, 1/20⟩ : BB ℚ) ∧ (⟨1/2, 0, 3/5, 1/20⟩ : BB ℚ).intersects ⟨1/4, 0, 1/2, 1/8⟩ = true ∧
    (0:ℚ) < 3602879701896397/36028797018963968 ∧ |⌊(1/2 : ℚ) / (3602879701896397/36028797018963968)⌋| < 2 ^ 53 - 1 := by
  obtain ⟨s1, e1, H1⟩ := C141_total binary64 (dim := 3602879701896397/36028797018963968) (n := 101) (by norm_num) .nil (.insert 7 0 ⟨1/2, 0, 3/5, 1/20⟩)
    ⟨rfl, Or.inr ⟨by simp [Hash.empty], by simp [Hash.empty]⟩⟩
  obtain ⟨s2, e2, H2⟩ := C141_total binary64 (by norm_num) H1 (.insert 8 1 ⟨1/4, 0, 1/2, 1/8⟩) ⟨by decide +kernel, by
    obtain ⟨H, _⟩ := H1.exact.ok (by norm_num)
    rw [HOp.runR, Option.some.injEq] at e1
    subst e1
    exact CanGet.of_ret H (by decide +kernel)⟩
  exact ⟨s2, H2, by decide +kernel, by unfold Proper; decide +kernel, by decide +kernel, by norm_num, by decide +kernel⟩

end Cm
