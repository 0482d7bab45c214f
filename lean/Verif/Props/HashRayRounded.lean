import Verif.Props.HashRounded
import Verif.Props.SpaceHashRay

/-!
# C142: ray casts through the spatial hash in rounded arithmetic

Boxes are filed by the rounded quotient of their bounds and the size of the cells; the walk of a ray starts at the rounded
product of the start and the rounded reciprocal of that size. The two need not be in the same cell.
-/

set_option linter.unusedSectionVars false
set_option linter.unusedSimpArgs false
set_option linter.unusedVariables false

namespace Cm
open Hash Spec

namespace Hash
variable {K : Type} [Field K] [LinearOrder K] [FloorRing K]

/-- `a.Scale(1.0 / hash.celldim)`: space_hash.go:249-250. -/
def scaleR (R : Rounding K) (dim : K) (a : V2 K) : V2 K := ⟨R.r (a.x * R.r (1 / dim)), R.r (a.y * R.r (1 / dim))⟩

/-- `xInc` and `tempH`, `yInc` and `tempV`: space_hash.go:257-271. `math.Floor` is exact. -/
def axisStartR (R : Rounding K) (a b : K) : Int × K := if b > a then (1, R.r ((⌊R.r (a + 1)⌋ : K) - a)) else (-1, R.r (a - (⌊a⌋ : K)))

/-- `dtdx`, `dtdy`: space_hash.go:273-286. -/
def axisRateR (R : Rounding K) (inf a b : K) : K := if |R.r (b - a)| ≠ 0 then R.r (1 / |R.r (b - a)|) else inf

/-- `nextH`, `nextV`: space_hash.go:288-298. -/
def axisNextR (R : Rounding K) (inf a b : K) : K :=
  if (axisStartR R a b).2 ≠ 0 then R.r ((axisStartR R a b).2 * axisRateR R inf a b) else axisRateR R inf a b

/-- space_hash.go:251-298; `a` and `b` are in units of the cells. -/
def Walk.startR (R : Rounding K) (inf : K) (a b : V2 K) : Walk K :=
  ⟨goFloor a.x, goFloor a.y, (axisStartR R a.x b.x).1, (axisStartR R a.y b.y).1, axisRateR R inf a.x b.x, axisRateR R inf a.y b.y, 0,
    axisNextR R inf a.x b.x, axisNextR R inf a.y b.y⟩

/-- space_hash.go:304-312 -/
def Walk.nextR (R : Rounding K) (w : Walk K) : Walk K :=
  if w.nextV < w.nextH then { w with cy := w.cy + w.yInc, t := w.nextV, nextV := R.r (w.nextV + w.dtdy) }
  else { w with cx := w.cx + w.xInc, t := w.nextH, nextH := R.r (w.nextH + w.dtdx) }

/-- The loop with rounded sums: space_hash.go:300-313, as `rayLoop`. -/
def rayLoopR (R : Rounding K) (f : Nat → K) : Nat → K → Walk K → St → Option (St × List Nat × K)
  | 0, _, _, _ => none
  | n + 1, tExit, w, s =>
    if w.t < tExit then
      match queryCell none (hashFunc w.cx w.cy s.n) ((s.table (hashFunc w.cx w.cy s.n)).length + 1) s with
      | none => none
      | some r => match rayLoopR R f n (min tExit (bound f r.2)) (w.nextR R) r.1 with
        | none => none
        | some q => some (q.1, r.2 ++ q.2.1, q.2.2)
    else some (s, [], tExit)

/-- `SegmentQuery`: space_hash.go:248-316, with rounding. -/
def segmentQueryR (R : Rounding K) (dim inf : K) (s : St) (a b : V2 K) (tExit : K) (f : Nat → K) (fuel : Nat) : Option (St × List Nat × K) :=
  match rayLoopR R f fuel tExit (Walk.startR R inf (scaleR R dim a) (scaleR R dim b)) s with
  | none => none
  | some r => some ({ r.1 with now := r.1.now + 1 }, r.2.1, r.2.2)

end Hash

variable {K : Type} [Field K] [LinearOrder K] [IsStrictOrderedRing K] [FloorRing K]

/-! ### What holds of every ray cast -/

/-- The loop reports what is filed in the first cell it looks at. -/
theorem rayLoopR_cast (R : Rounding K) {C : Nat → Option (List Nat)} (f : Nat → K) : ∀ (n : Nat) (tExit : K) (w : Walk K) (s : St) (out : List Nat) (r : St × List Nat × K),
    tExit ≤ 1 → Inv s (fun _ => 0) → Filed s C → Seen s out → rayLoopR R f n tExit w s = some r → Cast C s f tExit out r ∧
      (w.t < tExit → ∀ x m, C x = some m → hashFunc w.cx w.cy s.n ∈ m → x ∈ out ++ r.2.1) := by
  intro n
  induction n with
  | zero => intro tExit w s out r _ _ _ _ h; simp [rayLoopR] at h
  | succ n ih =>
    intro tExit w s out r ht I F Q h
    rw [rayLoopR] at h
    split at h
    · obtain ⟨t1, o1, e1, L⟩ := queryCell_ok none (hashFunc w.cx w.cy s.n) s (fun _ => 0) out I Q _ (Nat.lt_succ_self _)
      rw [e1] at h
      simp only at h
      rcases hr : rayLoopR R f n (min tExit (Hash.bound f o1)) (w.nextR R) t1 with _ | q
      · rw [hr] at h; simp at h
      · rw [hr] at h
        simp only [Option.some.injEq] at h
        subst h
        have c := (ih _ _ _ (out ++ o1) q ((min_le_left _ _).trans ht) L.inv (F.same L.same) L.seen hr).1
        obtain ⟨b1, b2, b3⟩ := bound_le f o1 1
        refine ⟨⟨c.inv, L.same.trans c.same, by simpa using c.seen, c.le.trans (min_le_left _ _), ?_, ?_, ?_⟩, ?_⟩
        · intro x hx
          rcases List.mem_append.1 hx with hx | hx
          · exact c.le.trans ((min_le_right _ _).trans (b2 x hx))
          · exact c.bound x hx
        · rcases c.eq with h | ⟨x, hx, h⟩
          · rcases min_choice tExit (Hash.bound f o1) with hm | hm
            · left; simp only; rw [h, hm]
            · rcases b3 with b3 | ⟨x, hx, b3⟩
              · left
                have : Hash.bound f o1 = 1 := b3
                simp only; rw [h, this]; exact min_eq_left ht
              · right; exact ⟨x, by simp [hx], by simp only; rw [h, hm]; exact b3⟩
          · right; exact ⟨x, by simp [hx], h⟩
        · intro x hx
          rcases List.mem_append.1 hx with hx | hx
          · obtain ⟨_, i, g, _, _, h3, h4⟩ := L.sound x hx
            obtain ⟨l, hl, _⟩ := F.1 g h3 x h4
            rw [hl]; simp
          · exact c.mem x hx
        · intro _ x m hx hm
          obtain ⟨g, g1, g2⟩ := F.2 x (by rw [hx]; simp)
          obtain ⟨l, g3, g4⟩ := F.1 g g1 x g2
          rw [hx, Option.some.injEq] at g3
          subst g3
          have := L.full _ g rfl ((g4 _).2 hm) g1 x g2 (by simp)
          simp only
          rw [← List.append_assoc]
          exact List.mem_append_left _ this
    · rename_i hlt
      simp only [Option.some.injEq] at h
      subst h
      exact ⟨⟨I, Same.refl s, by simpa using Q, le_rfl, by simp, Or.inl rfl, by simp⟩, fun h => absurd h hlt⟩

/-- Whatever is rounded, a ray cast that ends reports no shape twice and only shapes of the index, ends with the least
fraction the callback gave, and leaves the index able to answer every later call. -/
theorem C142_safe (R : Rounding K) {dim inf : K} {n : Nat} (hn : 0 < n) {ops : List (HOp K)} {s : St} (h : HashedR R dim n ops s) (a b : V2 K) {tExit : K}
    (ht : tExit ≤ 1) (f : Nat → K) {fuel : Nat} {s' : St} {o : List Nat} {te : K} (e : segmentQueryR R dim inf s a b tExit f fuel = some (s', o, te)) :
    Hash.Ok s' ∧ Filed s' (filing 1 n fun x => (boxes ops x).map (R.inCells dim)) ∧ s'.n = n ∧ o.Nodup ∧ (∀ x ∈ o, boxes ops x ≠ none) ∧
      te ≤ tExit ∧ (∀ x ∈ o, te ≤ f x) ∧ (te = tExit ∨ ∃ x ∈ o, te = f x) := by
  obtain ⟨H, F, hsn⟩ := h.exact.ok hn
  rw [boxes_map] at F
  rw [segmentQueryR] at e
  split at e
  · simp at e
  rename_i r hr
  simp only [Option.some.injEq, Prod.mk.injEq] at e
  obtain ⟨rfl, rfl, rfl⟩ := e
  obtain ⟨c, _⟩ := rayLoopR_cast R f fuel tExit _ s [] r ht H.inv F H.seen hr
  have hnd := c.seen.nodup
  simp only [List.nil_append] at hnd
  refine ⟨⟨c.inv.tick, fun g => Nat.lt_succ_of_le (c.inv.stamps g)⟩, (show Filed r.1 _ from F.same c.same), c.same.n.trans hsn, hnd, fun x hx => ?_, c.le, c.bound, c.eq⟩
  have := c.mem x hx
  rw [ne_eq, filing_none] at this
  simpa using this

theorem inCells_point (R : Rounding K) {dim : K} (hd : 0 < dim) (p : V2 K) {bb : BB K} (h : inBox p bb) (n : Nat) :
    hashFunc (goFloor (R.r (p.x / dim))) (goFloor (R.r (p.y / dim))) n ∈ cells 1 n (R.inCells dim bb) := by
  obtain ⟨h1, h2, h3, h4⟩ := h
  rw [goFloor_eq, goFloor_eq, mem_cells]
  refine ⟨_, _, ⟨?_, ?_, ?_, ?_⟩, rfl⟩ <;> simp only [Rounding.inCells, div_one] <;> exact Int.floor_mono (quot_mono R hd (by assumption))

/-- With cells of a size whose reciprocal is exact, as a power of two, the walk starts in the cell where boxes around the
start are filed: a ray that ends reports every shape whose box its start is in. -/
theorem C142_start (R : Rounding K) {dim inf : K} {n : Nat} (hn : 0 < n) (hd : 0 < dim) (hr : R.r (1 / dim) = 1 / dim) {ops : List (HOp K)} {s : St}
    (h : HashedR R dim n ops s) (a b : V2 K) {tExit : K} (h0 : 0 < tExit) (ht : tExit ≤ 1) (f : Nat → K) {fuel : Nat} {s' : St} {o : List Nat} {te : K}
    (e : segmentQueryR R dim inf s a b tExit f fuel = some (s', o, te)) : ∀ x bb, boxes ops x = some bb → inBox a bb → x ∈ o := by
  intro x bb hb hin
  obtain ⟨H, F, hsn⟩ := h.exact.ok hn
  rw [segmentQueryR] at e
  split at e
  · simp at e
  rename_i r hr'
  simp only [Option.some.injEq, Prod.mk.injEq] at e
  obtain ⟨rfl, rfl, rfl⟩ := e
  obtain ⟨_, c⟩ := rayLoopR_cast R f fuel tExit _ s [] r ht H.inv F H.seen hr'
  have := c h0 x (cells 1 n (R.inCells dim bb)) (by rw [boxes_map]; simp [filing, hb]) (by
    have := inCells_point R hd a hin n
    rw [hsn]
    show hashFunc (goFloor (R.r (a.x * R.r (1 / dim)))) (goFloor (R.r (a.y * R.r (1 / dim)))) n ∈ _
    rw [hr, mul_one_div, mul_one_div]
    exact this)
  simpa using this

/-! ### What rounding breaks -/

/-- A box in the second column of a grid of size 49. -/
def farOps : List (HOp ℚ) := [.insert 5 0 ⟨60, 0, 70, 20⟩]
def farHash : St := Hash.insert (Hash.empty 101) 5 0 (cellsR binary64 49 101 ⟨60, 0, 70, 20⟩)

theorem farOps_reached : HashedR binary64 (49 : ℚ) 101 farOps farHash := by
  obtain ⟨s1, e1, H1⟩ := C141_total binary64 (dim := 49) (n := 101) (by norm_num) .nil (.insert 5 0 ⟨60, 0, 70, 20⟩)
    ⟨rfl, Or.inr ⟨by simp [Hash.empty], by simp [Hash.empty]⟩⟩
  rw [HOp.runR, Option.some.injEq] at e1
  subst e1
  exact H1

/-- `infinity`: everything.go:12. -/
def maxFloat : ℚ := 2 ^ 1024 - 2 ^ 971

/-- In `float64` 49 times the reciprocal of 49 is a little less than 1, and 1 more than that is rounded to 2. So a ray from
(49, 10) to (90, 10) is taken to have a whole cell before it in the first column; it never looks at the second one, where it
starts and ends, and misses a box that it goes right through. In exact arithmetic the box is found. -/
theorem C142_missed : HashedR binary64 (49 : ℚ) 101 farOps farHash ∧ boxes farOps 5 = some ⟨60, 0, 70, 20⟩ ∧
    inBox (onSeg (⟨49, 10⟩ : V2 ℚ) ⟨90, 10⟩ (1/2)) ⟨60, 0, 70, 20⟩ ∧
    (segmentQueryR binary64 49 maxFloat farHash ⟨49, 10⟩ ⟨90, 10⟩ 1 (fun _ => 11/41) 10).map (·.2) = some ([], 1) ∧
    (segmentQuery 49 maxFloat farHash ⟨49, 10⟩ ⟨90, 10⟩ 1 (fun _ => 11/41) 10).map (·.2) = some ([5], 11/41) := by
  refine ⟨farOps_reached, by decide +kernel, by unfold inBox onSeg; decide +kernel, by decide +kernel, by decide +kernel⟩

/-- From one unit to the left the same box is found. -/
example : (segmentQueryR binary64 49 maxFloat farHash ⟨48, 10⟩ ⟨90, 10⟩ 1 (fun _ => 12/42) 10).map (·.2) = some ([5], 12/42) := by decide +kernel

/-- Even a box around the start is missed: filed in the column 1, looked for in the column 0. -/
theorem C142_start_missed : ∃ s, HashedR binary64 (49 : ℚ) 101 [.insert 5 0 ⟨49, 0, 70, 20⟩] s ∧
    inBox (⟨49, 10⟩ : V2 ℚ) ⟨49, 0, 70, 20⟩ ∧ inBox (⟨49, 15⟩ : V2 ℚ) ⟨49, 0, 70, 20⟩ ∧
    (segmentQueryR binary64 49 maxFloat s ⟨49, 10⟩ ⟨49, 15⟩ 1 (fun _ => 0) 10).map (·.2) = some ([], 1) := by
  obtain ⟨s1, e1, H1⟩ := C141_total binary64 (dim := 49) (n := 101) (by norm_num) .nil (.insert 5 0 ⟨49, 0, 70, 20⟩)
    ⟨rfl, Or.inr ⟨by simp [Hash.empty], by simp [Hash.empty]⟩⟩
  refine ⟨s1, H1, by unfold inBox; decide +kernel, by unfold inBox; decide +kernel, ?_⟩
  rw [HOp.runR, Option.some.injEq] at e1
  subst e1
  decide +kernel

/-- A size with an exact reciprocal, and a ray that starts in a box. -/
example : binary64.r (1 / (32 : ℚ)) = 1 / 32 ∧
    (segmentQueryR binary64 32 maxFloat (Hash.insert (Hash.empty 101) 5 0 (cellsR binary64 32 101 ⟨32, 0, 70, 20⟩)) ⟨32, 10⟩ ⟨32, 15⟩ 1 (fun _ => 0) 10).map (·.2) =
      some ([5], 0) := by decide +kernel

end Cm
