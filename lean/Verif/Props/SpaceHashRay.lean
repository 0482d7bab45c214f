import Verif.Model.SpaceHashRay
import Verif.Props.SpaceHash
import Mathlib.Tactic.LinearCombination
import Mathlib.Tactic.FieldSimp
import Mathlib.Algebra.Order.Floor.Ring
/-! # C93: ray casts through the spatial hash -/
set_option linter.unusedSectionVars false
set_option linter.unusedSimpArgs false
set_option linter.unusedVariables false

namespace Cm
open Hash Spec
variable {K : Type} [Field K] [LinearOrder K] [IsStrictOrderedRing K] [FloorRing K]

namespace Spec
/-- The point of the segment at the fraction `u`. -/
def onSeg (a b : V2 K) (u : K) : V2 K := ⟨a.x + u * (b.x - a.x), a.y + u * (b.y - a.y)⟩

/-- The point lies in the box. -/
def inBox (p : V2 K) (bb : BB K) : Prop := bb.L ≤ p.x ∧ p.x ≤ bb.R ∧ bb.B ≤ p.y ∧ p.y ≤ bb.T

/-- The coordinate is on a line of the grid. -/
def onLine (dim x : K) : Prop := ∃ k : Int, x = k * dim

/-- A start, in one coordinate, which is no trouble: not on a line of the grid when going down, and not too close above one
when standing still (closer than `inf` can tell, about `10⁻³⁰⁸` cells). -/
def GoodStart (dim inf a b : K) : Prop := (b < a → ¬ onLine dim a) ∧ (a = b → ¬ onLine dim a → dim ≤ (a - ⌊a / dim⌋ * dim) * inf)

/-- The segment goes left and up through a corner of the grid at `u`. -/
def AtCorner (dim : K) (a b : V2 K) (u : K) : Prop := b.x < a.x ∧ a.y < b.y ∧ onLine dim (onSeg a b u).x ∧ onLine dim (onSeg a b u).y
end Spec

/-- The time of the `k`th change of cell along an axis. -/
def axisTime (inf a b : K) (k : Nat) : K := axisNext inf a b + ((k : K) - 1) * axisRate inf a b

/-- A good start in units of cells. -/
def Spec.GoodAxis (inf a b : K) : Prop := (b < a → a ≠ ⌊a⌋) ∧ (a = b → a ≠ ⌊a⌋ → 1 ≤ (a - ⌊a⌋) * inf)

/-- The cells along one axis. -/
theorem axis_cells (inf a b : K) (hi : 1 ≤ inf) (g : GoodAxis inf a b) (u : K) (h0 : 0 ≤ u) (h1 : u < 1) :
    ∃ k : Nat, ⌊a + u * (b - a)⌋ = ⌊a⌋ + (axisStart a b).1 * k ∧ (1 ≤ k → axisTime inf a b k ≤ u ∧ (b < a → axisTime inf a b k < u)) ∧
      u ≤ axisTime inf a b (k + 1) ∧ (u = axisTime inf a b (k + 1) → b < a ∧ (⌊a + u * (b - a)⌋ : K) = a + u * (b - a)) ∧
      (1 ≤ k → u = axisTime inf a b k → (⌊a + u * (b - a)⌋ : K) = a + u * (b - a)) ∧ (1 ≤ k → a ≠ b) := by
  have f1 := Int.floor_le a
  have f2 := Int.lt_floor_add_one a
  rcases lt_trichotomy a b with hab | hab | hab
  · have hd : 0 < b - a := by linarith
    have hr : axisRate inf a b = 1 / (b - a) := by rw [axisRate, abs_of_pos hd, if_pos (ne_of_gt hd)]
    have hs : axisStart a b = (1, (⌊a⌋ : K) + 1 - a) := by
      rw [axisStart, if_pos hab, Int.floor_add_one]; push_cast; rfl
    have hx : axisNext inf a b = ((⌊a⌋ : K) + 1 - a) * (1 / (b - a)) := by
      rw [axisNext, hs, hr]; simp only; rw [if_pos (by linarith)]
    have ht : ∀ k : Nat, axisTime inf a b k = ((⌊a⌋ : K) + k - a) / (b - a) := by
      intro k; rw [axisTime, hx, hr]; field_simp; ring
    have hp : a ≤ a + u * (b - a) := by have := mul_nonneg h0 hd.le; linarith
    have hm := Int.floor_mono hp
    obtain ⟨k, hk⟩ := Int.eq_ofNat_of_zero_le (sub_nonneg.2 hm)
    have hk' : ⌊a + u * (b - a)⌋ = ⌊a⌋ + k := by omega
    have g1 := Int.floor_le (a + u * (b - a))
    have g2 := Int.lt_floor_add_one (a + u * (b - a))
    rw [hk'] at g1 g2
    push_cast at g1 g2
    have lt1 : u < axisTime inf a b (k + 1) := by
      rw [ht, lt_div_iff₀ hd]; push_cast; linarith
    refine ⟨k, by rw [hs, hk']; ring, fun h => ⟨?_, fun h' => absurd h' (not_lt.2 hab.le)⟩, lt1.le, fun h => absurd h (ne_of_lt lt1), fun h e => ?_, ?_⟩
    · rw [ht, div_le_iff₀ hd]; linarith
    · rw [ht, eq_div_iff (ne_of_gt hd)] at e
      rw [hk']; push_cast; linarith
    · exact fun _ => ne_of_lt hab
  · subst hab
    have hr : axisRate inf a a = inf := by rw [axisRate]; simp
    have hs : axisStart a a = (-1, a - ⌊a⌋) := by rw [axisStart, if_neg (lt_irrefl a)]
    have hx : 1 ≤ axisNext inf a a := by
      rw [axisNext, hs, hr]; simp only
      split
      · rename_i h; exact g.2 rfl (fun h' => h (sub_eq_zero.2 h'))
      · exact hi
    have lt1 : u < axisTime inf a a (0 + 1) := by
      rw [axisTime]; simp only [zero_add, Nat.cast_one, sub_self, zero_mul, add_zero]; linarith
    refine ⟨0, by simp, fun h => absurd h (by omega), lt1.le, fun h => absurd h (ne_of_lt lt1), fun h => absurd h (by omega), fun h => absurd h (by omega)⟩
  · have hd : 0 < a - b := by linarith
    have hab' : |b - a| = a - b := by rw [abs_sub_comm]; exact abs_of_pos hd
    have hr : axisRate inf a b = 1 / (a - b) := by rw [axisRate, hab', if_pos (ne_of_gt hd)]
    have hs : axisStart a b = (-1, a - ⌊a⌋) := by rw [axisStart, if_neg (by simpa using hab.le)]
    have hne := g.1 hab
    have hx : axisNext inf a b = (a - ⌊a⌋) * (1 / (a - b)) := by
      rw [axisNext, hs, hr]; simp only; rw [if_pos (sub_ne_zero.2 hne)]
    have ht : ∀ k : Nat, axisTime inf a b k = (a - ⌊a⌋ + k - 1) / (a - b) := by
      intro k; rw [axisTime, hx, hr]; field_simp; ring
    have hp : a + u * (b - a) ≤ a := by nlinarith [mul_nonneg h0 hd.le]
    have hm := Int.floor_mono hp
    obtain ⟨k, hk⟩ := Int.eq_ofNat_of_zero_le (sub_nonneg.2 hm)
    have hk' : ⌊a + u * (b - a)⌋ = ⌊a⌋ - k := by omega
    have g1 := Int.floor_le (a + u * (b - a))
    have g2 := Int.lt_floor_add_one (a + u * (b - a))
    rw [hk'] at g1 g2
    push_cast at g1 g2
    refine ⟨k, by rw [hs, hk']; ring, fun h => ?_, ?_, fun e => ⟨hab, ?_⟩, fun h e => ?_, fun _ => ne_of_gt hab⟩
    · have : axisTime inf a b k < u := by rw [ht, div_lt_iff₀ hd]; linarith
      exact ⟨this.le, fun _ => this⟩
    · rw [ht, le_div_iff₀ hd]; push_cast; linarith
    · rw [ht, eq_div_iff (ne_of_gt hd)] at e
      rw [hk']; push_cast at e ⊢; linarith
    · have : axisTime inf a b k < u := by rw [ht, div_lt_iff₀ hd]; linarith
      exact absurd e (ne_of_gt this)

/-- Where the walk is after `i` steps along one axis and `j` along the other. -/
structure Along (inf : K) (a b : V2 K) (i j : Nat) (w : Walk K) : Prop where
  cx : w.cx = ⌊a.x⌋ + (axisStart a.x b.x).1 * i
  cy : w.cy = ⌊a.y⌋ + (axisStart a.y b.y).1 * j
  xInc : w.xInc = (axisStart a.x b.x).1
  yInc : w.yInc = (axisStart a.y b.y).1
  dtdx : w.dtdx = axisRate inf a.x b.x
  dtdy : w.dtdy = axisRate inf a.y b.y
  nextH : w.nextH = axisTime inf a.x b.x (i + 1)
  nextV : w.nextV = axisTime inf a.y b.y (j + 1)
  t : w.t = 0 ∨ (1 ≤ i ∧ w.t = axisTime inf a.x b.x i) ∨ (1 ≤ j ∧ w.t = axisTime inf a.y b.y j)

theorem along_start (inf : K) (a b : V2 K) : Along inf a b 0 0 (Walk.start inf a b) := by
  refine ⟨by simp [Walk.start, goFloor_eq], by simp [Walk.start, goFloor_eq], rfl, rfl, rfl, rfl, ?_, ?_, Or.inl rfl⟩
  · simp [Walk.start, axisTime]
  · simp [Walk.start, axisTime]

theorem along_next {inf : K} {a b : V2 K} {i j : Nat} {w : Walk K} (h : Along inf a b i j w) :
    (w.nextV < w.nextH ∧ Along inf a b i (j + 1) w.next) ∨ (w.nextH ≤ w.nextV ∧ Along inf a b (i + 1) j w.next) := by
  have e : ∀ (c d : K) (k : Nat), axisTime inf c d k + axisRate inf c d = axisTime inf c d (k + 1) := by
    intro c d k; simp only [axisTime]; push_cast; ring
  by_cases hlt : w.nextV < w.nextH
  · left
    refine ⟨hlt, ?_⟩
    rw [Walk.next, if_pos hlt]
    refine ⟨h.cx, ?_, h.xInc, h.yInc, h.dtdx, h.dtdy, h.nextH, ?_, Or.inr (Or.inr ⟨by omega, h.nextV⟩)⟩
    · simp only; rw [h.cy, h.yInc]; push_cast; ring
    · simp only; rw [h.nextV, h.dtdy, e]
  · right
    refine ⟨not_lt.1 hlt, ?_⟩
    rw [Walk.next, if_neg hlt]
    refine ⟨?_, h.cy, h.xInc, h.yInc, h.dtdx, h.dtdy, ?_, h.nextV, Or.inr (Or.inl ⟨by omega, h.nextH⟩)⟩
    · simp only; rw [h.cx, h.xInc]; push_cast; ring
    · simp only; rw [h.nextH, h.dtdx, e]

theorem bound_le (f : Nat → K) (o : List Nat) : ∀ t : K, o.foldl (fun t x => min t (f x)) t ≤ t ∧ (∀ x ∈ o, o.foldl (fun t x => min t (f x)) t ≤ f x) ∧
    (o.foldl (fun t x => min t (f x)) t = t ∨ ∃ x ∈ o, o.foldl (fun t x => min t (f x)) t = f x) := by
  induction o with
  | nil => intro t; simp
  | cons x o ih =>
    intro t
    obtain ⟨h1, h2, h3⟩ := ih (min t (f x))
    simp only [List.foldl_cons]
    refine ⟨h1.trans (min_le_left _ _), ?_, ?_⟩
    · intro y hy
      rcases List.mem_cons.1 hy with rfl | hy
      · exact h1.trans (min_le_right _ _)
      · exact h2 y hy
    · rcases h3 with h3 | ⟨y, hy, h3⟩
      · rcases min_choice t (f x) with h | h
        · left; rw [h3, h]
        · right; exact ⟨x, by simp, by rw [h3, h]⟩
      · right; exact ⟨y, by simp [hy], h3⟩

/-- The time of a step is not before the times of its axes. -/
theorem axisTime_mono (inf a b : K) (hi : 0 ≤ inf) {k l : Nat} (h : k ≤ l) : axisTime inf a b k ≤ axisTime inf a b l := by
  have hr : 0 ≤ axisRate inf a b := by
    rw [axisRate]; split
    · exact div_nonneg zero_le_one (abs_nonneg _)
    · exact hi
  have : (k : K) ≤ l := by exact_mod_cast h
  rw [axisTime, axisTime]
  have := mul_le_mul_of_nonneg_right (sub_le_sub_right this 1) hr
  linarith

/-- What the loop does, when it ends. -/
structure Cast (C : Nat → Option (List Nat)) (s : St) (f : Nat → K) (tExit : K) (out : List Nat) (r : St × List Nat × K) : Prop where
  inv : Inv r.1 fun _ => 0
  same : Same s r.1
  seen : Seen r.1 (out ++ r.2.1)
  le : r.2.2 ≤ tExit
  bound : ∀ x ∈ r.2.1, r.2.2 ≤ f x
  eq : r.2.2 = tExit ∨ ∃ x ∈ r.2.1, r.2.2 = f x
  mem : ∀ x ∈ r.2.1, C x ≠ none

theorem rayLoop_cast {C : Nat → Option (List Nat)} (f : Nat → K) : ∀ (n : Nat) (tExit : K) (w : Walk K) (s : St) (out : List Nat) (r : St × List Nat × K),
    tExit ≤ 1 → Inv s (fun _ => 0) → Filed s C → Seen s out → rayLoop f n tExit w s = some r → Cast C s f tExit out r := by
  intro n
  induction n with
  | zero => intro tExit w s out r _ _ _ _ h; simp [rayLoop] at h
  | succ n ih =>
    intro tExit w s out r ht I F Q h
    rw [rayLoop] at h
    split at h
    · obtain ⟨t1, o1, e1, L⟩ := queryCell_ok none (hashFunc w.cx w.cy s.n) s (fun _ => 0) out I Q _ (Nat.lt_succ_self _)
      rw [e1] at h
      simp only at h
      rcases hr : rayLoop f n (min tExit (Hash.bound f o1)) w.next t1 with _ | q
      · rw [hr] at h; simp at h
      · rw [hr] at h
        simp only [Option.some.injEq] at h
        subst h
        have c := ih _ _ _ (out ++ o1) q ((min_le_left _ _).trans ht) L.inv (F.same L.same) L.seen hr
        obtain ⟨b1, b2, b3⟩ := bound_le f o1 1
        refine ⟨c.inv, L.same.trans c.same, by simpa using c.seen, c.le.trans (min_le_left _ _), ?_, ?_, ?_⟩
        · intro x hx
          rcases List.mem_append.1 hx with hx | hx
          · exact c.le.trans ((min_le_right _ _).trans (b2 x hx))
          · exact c.bound x hx
        · rcases c.eq with h | ⟨x, hx, h⟩
          · rcases min_choice tExit (Hash.bound f o1) with hm | hm
            · left; simp only; rw [h, hm]
            · rcases b3 with b3 | ⟨x, hx, b3⟩
              · left
                have : Hash.bound f o1 = 1 := b3
                simp only; rw [h, this]; exact min_eq_left ht
              · right; exact ⟨x, by simp [hx], by simp only; rw [h, hm]; exact b3⟩
          · right; exact ⟨x, by simp [hx], h⟩
        · intro x hx
          rcases List.mem_append.1 hx with hx | hx
          · obtain ⟨_, i, g, _, _, h3, h4⟩ := L.sound x hx
            obtain ⟨l, hl, _⟩ := F.1 g h3 x h4
            rw [hl]; simp
          · exact c.mem x hx
    · simp only [Option.some.injEq] at h
      subst h
      exact ⟨I, Same.refl s, by simpa using Q, le_rfl, by simp, Or.inl rfl, by simp⟩

/-- Every cell the segment is in before the end is looked at. -/
theorem rayLoop_full {C : Nat → Option (List Nat)} (f : Nat → K) (inf : K) (hi : 1 ≤ inf) (a b : V2 K) (u : K) (h0 : 0 ≤ u) (I J : Nat)
    (hIx : ∀ k, k ≤ I → 1 ≤ k → axisTime inf a.x b.x k ≤ u) (hJy : ∀ k, k ≤ J → 1 ≤ k → axisTime inf a.y b.y k ≤ u)
    (hI1 : u ≤ axisTime inf a.x b.x (I + 1)) (hJ1 : u ≤ axisTime inf a.y b.y (J + 1))
    (hc : u = axisTime inf a.x b.x (I + 1) → ∀ k, k ≤ J → 1 ≤ k → axisTime inf a.y b.y k < u) :
    ∀ (n : Nat) (tExit : K) (w : Walk K) (s : St) (out : List Nat) (r : St × List Nat × K) (i j : Nat),
      tExit ≤ 1 → Inv s (fun _ => 0) → Filed s C → Seen s out → rayLoop f n tExit w s = some r → Along inf a b i j w → i ≤ I → j ≤ J → u < r.2.2 →
      ∀ x m, C x = some m → hashFunc (⌊a.x⌋ + (axisStart a.x b.x).1 * I) (⌊a.y⌋ + (axisStart a.y b.y).1 * J) s.n ∈ m → x ∈ out ++ r.2.1 := by
  intro n
  induction n with
  | zero => intro tExit w s out r i j _ _ _ _ h; simp [rayLoop] at h
  | succ n ih =>
    intro tExit w s out r i j ht In F Q h hw hiI hjJ hu x m hx hm
    have hle := (rayLoop_cast (C := C) f (n + 1) tExit w s out r ht In F Q h).le
    have hwt : w.t ≤ u := by
      rcases hw.t with e | ⟨h1, e⟩ | ⟨h1, e⟩
      · rw [e]; exact h0
      · rw [e]; exact hIx i hiI h1
      · rw [e]; exact hJy j hjJ h1
    rw [rayLoop, if_pos (by linarith)] at h
    obtain ⟨t1, o1, e1, L⟩ := queryCell_ok none (hashFunc w.cx w.cy s.n) s (fun _ => 0) out In Q _ (Nat.lt_succ_self _)
    rw [e1] at h
    simp only at h
    rcases hr : rayLoop f n (min tExit (Hash.bound f o1)) w.next t1 with _ | q
    · rw [hr] at h; simp at h
    rw [hr] at h
    simp only [Option.some.injEq] at h
    subst h
    have rest : ∀ i' j', Along inf a b i' j' w.next → i' ≤ I → j' ≤ J → x ∈ out ++ (o1 ++ q.2.1) := by
      intro i' j' hw' h1 h2
      have := ih _ _ _ (out ++ o1) q i' j' ((min_le_left _ _).trans ht) L.inv (F.same L.same) L.seen hr hw' h1 h2 hu x m hx (by rw [L.same.n]; exact hm)
      simpa using this
    by_cases hij : i = I ∧ j = J
    · obtain ⟨rfl, rfl⟩ := hij
      rw [← hw.cx, ← hw.cy] at hm
      obtain ⟨g, g1, g2⟩ := F.2 x (by rw [hx]; simp)
      obtain ⟨l, g3, g4⟩ := F.1 g g1 x g2
      rw [hx, Option.some.injEq] at g3
      subst g3
      have := L.full _ g rfl ((g4 _).2 hm) g1 x g2 (by simp)
      simp only
      rw [← List.append_assoc]
      exact List.mem_append_left _ this
    · rcases along_next hw with ⟨hlt, hw'⟩ | ⟨hge, hw'⟩
      · rcases Nat.lt_or_ge j J with hj | hj
        · exact rest _ _ hw' hiI hj
        · exfalso
          have : j = J := by omega
          subst this
          have hi' : i < I := by rcases Nat.lt_or_ge i I with h | h; exact h; exact absurd ⟨by omega, rfl⟩ hij
          have e1 := hIx (i + 1) (by omega) (by omega)
          rw [hw.nextV, hw.nextH] at hlt
          linarith
      · rcases Nat.lt_or_ge i I with hi' | hi'
        · exact rest _ _ hw' hi' hjJ
        · exfalso
          have : i = I := by omega
          subst this
          have hj' : j < J := by rcases Nat.lt_or_ge j J with h | h; exact h; exact absurd ⟨rfl, by omega⟩ hij
          have e1 := hJy (j + 1) (by omega) (by omega)
          rw [hw.nextV, hw.nextH] at hge
          have e2 : u = axisTime inf a.x b.x (i + 1) := le_antisymm hI1 (by linarith)
          have := hc e2 (j + 1) (by omega) (by omega)
          linarith

/-- Times go beyond any bound. -/
theorem axisTime_big (inf a b : K) (hi : 1 ≤ inf) (g : GoodAxis inf a b) : ∃ n : Nat, ∀ k, n ≤ k → 1 ≤ axisTime inf a b k := by
  have f1 := Int.floor_le a
  by_cases hab : a = b
  · subst hab
    have hr : axisRate inf a a = inf := by rw [axisRate]; simp
    have hs : axisStart a a = (-1, a - ⌊a⌋) := by rw [axisStart, if_neg (lt_irrefl a)]
    refine ⟨1, fun k hk => le_trans ?_ (axisTime_mono inf a a (by linarith) hk)⟩
    rw [axisTime, axisNext, hs, hr]
    simp only [Nat.cast_one, sub_self, zero_mul, add_zero]
    split
    · rename_i h; exact g.2 rfl (fun h' => h (sub_eq_zero.2 h'))
    · exact hi
  · have hd : 0 < |b - a| := abs_pos.2 (sub_ne_zero.2 (Ne.symm hab))
    have hr : axisRate inf a b = 1 / |b - a| := by rw [axisRate, if_pos (ne_of_gt hd)]
    have hn : 0 ≤ axisNext inf a b := by
      have hrp : 0 ≤ axisRate inf a b := by rw [hr]; positivity
      have hs : 0 ≤ (axisStart a b).2 := by
        rw [axisStart]; split
        · rw [Int.floor_add_one]; push_cast; linarith [Int.lt_floor_add_one a]
        · simp only; linarith
      rw [axisNext]; split
      · exact mul_nonneg hs hrp
      · exact hrp
    refine ⟨⌈|b - a|⌉.toNat + 1, fun k hk => ?_⟩
    have h1 : |b - a| ≤ (k : K) - 1 := by
      have h2 := Int.le_ceil |b - a|
      have h3 : (⌈|b - a|⌉ : K) ≤ ((⌈|b - a|⌉.toNat : Int) : K) := by exact_mod_cast Int.self_le_toNat _
      have h4 : ((⌈|b - a|⌉.toNat + 1 : Nat) : K) ≤ k := by exact_mod_cast hk
      push_cast at h3 h4
      linarith
    rw [axisTime, hr]
    have : 1 ≤ ((k : K) - 1) * (1 / |b - a|) := by rw [mul_one_div, le_div_iff₀ hd]; linarith
    linarith

theorem rayLoop_ends (f : Nat → K) (inf : K) (hi : 1 ≤ inf) (a b : V2 K) (nx ny : Nat) (hnx : ∀ k, nx ≤ k → 1 ≤ axisTime inf a.x b.x k)
    (hny : ∀ k, ny ≤ k → 1 ≤ axisTime inf a.y b.y k) : ∀ (n : Nat) (tExit : K) (w : Walk K) (s : St) (out : List Nat) (i j : Nat), tExit ≤ 1 →
      Inv s (fun _ => 0) → Seen s out → Along inf a b i j w → (nx - i) + (ny - j) + 1 < n → ∃ r, rayLoop f n tExit w s = some r := by
  intro n
  induction n with
  | zero => intro _ _ _ _ _ _ _ _ _ _ h; omega
  | succ n ih =>
    intro tExit w s out i j ht In Q hw hlt
    rw [rayLoop]
    split
    · rename_i hwt
      obtain ⟨t1, o1, e1, L⟩ := queryCell_ok none (hashFunc w.cx w.cy s.n) s (fun _ => 0) out In Q _ (Nat.lt_succ_self _)
      rw [e1]
      simp only
      obtain ⟨m, rfl⟩ : ∃ m, n = m + 1 := ⟨n - 1, by omega⟩
      have big : 1 ≤ w.next.t → ∃ q, rayLoop f (m + 1) (min tExit (Hash.bound f o1)) w.next t1 = some q := by
        intro h
        rw [rayLoop, if_neg (by rw [not_lt]; exact (min_le_left _ _).trans (ht.trans h))]
        exact ⟨_, rfl⟩
      have : ∃ q, rayLoop f (m + 1) (min tExit (Hash.bound f o1)) w.next t1 = some q := by
        rcases along_next hw with ⟨hl, hw'⟩ | ⟨hl, hw'⟩
        · by_cases hj : ny ≤ j + 1
          · apply big
            have : w.next.t = w.nextV := by rw [Walk.next, if_pos hl]
            rw [this, hw.nextV]; exact hny _ hj
          · exact ih _ _ _ (out ++ o1) i (j + 1) ((min_le_left _ _).trans ht) L.inv L.seen hw' (by omega)
        · by_cases hj : nx ≤ i + 1
          · apply big
            have : w.next.t = w.nextH := by rw [Walk.next, if_neg (not_lt.2 hl)]
            rw [this, hw.nextH]; exact hnx _ hj
          · exact ih _ _ _ (out ++ o1) (i + 1) j ((min_le_left _ _).trans ht) L.inv L.seen hw' (by omega)
      obtain ⟨q, hq⟩ := this
      rw [hq]
      exact ⟨_, rfl⟩
    · exact ⟨_, rfl⟩

theorem goodAxis_of {dim inf a b : K} (hd : 0 < dim) (g : GoodStart dim inf a b) : GoodAxis inf (a * (1 / dim)) (b * (1 / dim)) := by
  have hd' := ne_of_gt hd
  have e : ∀ x : K, x * (1 / dim) = x / dim := fun x => mul_one_div x dim
  rw [e, e]
  have hl : a / dim = ⌊a / dim⌋ → onLine dim a := fun h => ⟨⌊a / dim⌋, by rw [← h]; field_simp⟩
  refine ⟨fun h hh => ?_, fun h hh => ?_⟩
  · exact g.1 ((div_lt_div_iff_of_pos_right hd).1 h) (hl hh)
  · have hab : a = b := by rw [div_left_inj' hd'] at h; exact h
    have hn : ¬ onLine dim a := by
      rintro ⟨k, rfl⟩
      rw [mul_div_assoc, div_self hd', mul_one, Int.floor_intCast] at hh
      exact hh rfl
    have := g.2 hab hn
    have h2 : (a / dim - ⌊a / dim⌋) * inf = (a - ⌊a / dim⌋ * dim) * inf / dim := by field_simp
    rw [h2, le_div_iff₀ hd]; linarith

theorem inCell_of {dim : K} (hd : 0 < dim) {p : V2 K} {bb : BB K} (h : inBox p bb) : inCell dim bb ⌊p.x / dim⌋ ⌊p.y / dim⌋ := by
  have m : ∀ {a b : K}, a ≤ b → ⌊a / dim⌋ ≤ ⌊b / dim⌋ := fun h => Int.floor_mono (div_le_div_of_nonneg_right h hd.le)
  exact ⟨m h.1, m h.2.1, m h.2.2.1, m h.2.2.2⟩

theorem onLine_of {dim : K} (hd : 0 < dim) {x y : K} (e : y = x / dim) (h : (⌊y⌋ : K) = y) : onLine dim x :=
  ⟨⌊y⌋, by rw [h, e]; field_simp⟩

/-- **C93** A ray cast ends, reports no shape twice and only shapes of the index, ends with the least of the fractions the callback gave, and reports every
shape whose box the segment is in before that; except that it may miss boxes the segment meets only in a corner of the grid. -/
theorem C93_found_partial {dim : K} {n : Nat} (hn : 0 < n) (hd : 0 < dim) {inf : K} (hi : 1 ≤ inf) {ops : List (HOp K)} {s : St} (h : Hashed dim n ops s) (a b : V2 K)
    (gx : GoodStart dim inf a.x b.x) (gy : GoodStart dim inf a.y b.y) (tExit : K) (ht : tExit ≤ 1) (f : Nat → K) :
    ∃ N, ∀ fuel, N ≤ fuel → ∃ s' o te, segmentQuery dim inf s a b tExit f fuel = some (s', o, te) ∧
      Hash.Ok s' ∧ Filed s' (filing dim n (boxes ops)) ∧ s'.n = n ∧ o.Nodup ∧ (∀ x ∈ o, boxes ops x ≠ none) ∧
      te ≤ tExit ∧ (∀ x ∈ o, te ≤ f x) ∧ (te = tExit ∨ ∃ x ∈ o, te = f x) ∧
      ∀ x bb u, boxes ops x = some bb → 0 ≤ u → u < te → inBox (onSeg a b u) bb → ¬ AtCorner dim a b u → x ∈ o := by
  obtain ⟨H, F, hsn⟩ := h.ok hn
  have hd' := ne_of_gt hd
  have Gx := goodAxis_of hd gx
  have Gy := goodAxis_of hd gy
  obtain ⟨nx, hnx⟩ := axisTime_big inf _ _ hi Gx
  obtain ⟨ny, hny⟩ := axisTime_big inf _ _ hi Gy
  refine ⟨nx + ny + 2, fun fuel hf => ?_⟩
  obtain ⟨r, hr⟩ := rayLoop_ends f inf hi (a.scale (1 / dim)) (b.scale (1 / dim)) nx ny hnx hny fuel tExit _ s [] 0 0 ht H.inv H.seen (along_start _ _ _) (by omega)
  have c := rayLoop_cast f fuel tExit _ s [] r ht H.inv F H.seen hr
  have hnd := c.seen.nodup
  simp only [List.nil_append] at hnd
  refine ⟨{ r.1 with now := r.1.now + 1 }, r.2.1, r.2.2, by rw [segmentQuery, hr], ⟨c.inv.tick, fun g => Nat.lt_succ_of_le (c.inv.stamps g)⟩,
    (show Filed r.1 _ from F.same c.same), c.same.n.trans hsn, hnd, fun x hx => ?_, c.le, c.bound, c.eq, ?_⟩
  · have := c.mem x hx
    rwa [ne_eq, filing_none] at this
  intro x bb u hb h0 hu hin hcor
  have hu1 : u < 1 := lt_of_lt_of_le hu (c.le.trans ht)
  obtain ⟨I, hI, hI1, hI2, hI3, hI4, hI5⟩ := axis_cells inf _ _ hi Gx u h0 hu1
  obtain ⟨J, hJ, hJ1, hJ2, hJ3, hJ4, hJ5⟩ := axis_cells inf _ _ hi Gy u h0 hu1
  have px : a.x * (1 / dim) + u * (b.x * (1 / dim) - a.x * (1 / dim)) = (onSeg a b u).x / dim := by simp only [onSeg]; field_simp
  have py : a.y * (1 / dim) + u * (b.y * (1 / dim) - a.y * (1 / dim)) = (onSeg a b u).y / dim := by simp only [onSeg]; field_simp
  have mono : ∀ (c d : K) (k l : Nat), k ≤ l → axisTime inf c d k ≤ axisTime inf c d l := fun c d k l h => axisTime_mono inf c d (by linarith) h
  have := rayLoop_full f inf hi (a.scale (1 / dim)) (b.scale (1 / dim)) u h0 I J
    (fun k h1 h2 => (mono _ _ k I h1).trans (hI1 (by omega)).1) (fun k h1 h2 => (mono _ _ k J h1).trans (hJ1 (by omega)).1) hI2 hJ2
    (fun e k h1 h2 => by
      obtain ⟨e1, e2⟩ := hI3 e
      have hJ1' := hJ1 (by omega)
      have hxlt : b.x < a.x := by
        rw [mul_one_div, mul_one_div] at e1
        exact (div_lt_div_iff_of_pos_right hd).1 e1
      refine lt_of_le_of_lt (mono _ _ k J h1) ?_
      rcases lt_or_eq_of_le hJ1'.1 with h | h
      · exact h
      · exfalso
        apply hcor
        refine ⟨hxlt, ?_, onLine_of hd px e2, onLine_of hd py (hJ4 (by omega) h.symm)⟩
        by_contra hle
        rcases lt_or_eq_of_le (not_lt.1 hle) with h5 | h5
        · have : b.y * (1 / dim) < a.y * (1 / dim) := by rw [mul_one_div, mul_one_div]; exact (div_lt_div_iff_of_pos_right hd).2 h5
          exact absurd h (ne_of_lt (hJ1'.2 this))
        · exact hJ5 (by omega) (by rw [h5]))
    fuel tExit _ s [] r 0 0 ht H.inv F H.seen hr (along_start _ _ _) (by omega) (by omega) hu x (cells dim n bb) (by simp [filing, hb])
    (by
      rw [mem_cells]
      refine ⟨_, _, inCell_of hd hin, ?_⟩
      rw [hsn, ← px, ← py]
      exact congrArg₂ (fun p q => hashFunc p q n) hI hJ)
  simpa using this

/-- **C93** So the bound at the end is the least fraction the callback gives for any shape of the index, if hits lie in the boxes of the shapes. -/
theorem C93_nearest_partial {dim : K} {n : Nat} (hn : 0 < n) (hd : 0 < dim) {inf : K} (hi : 1 ≤ inf) {ops : List (HOp K)} {s : St} (h : Hashed dim n ops s) (a b : V2 K)
    (gx : GoodStart dim inf a.x b.x) (gy : GoodStart dim inf a.y b.y) (tExit : K) (ht : tExit ≤ 1) (f : Nat → K)
    (hf : ∀ x bb, boxes ops x = some bb → f x < tExit → 0 ≤ f x ∧ inBox (onSeg a b (f x)) bb ∧ ¬ AtCorner dim a b (f x)) :
    ∃ N, ∀ fuel, N ≤ fuel → ∃ s' o te, segmentQuery dim inf s a b tExit f fuel = some (s', o, te) ∧
      (∀ x, boxes ops x ≠ none → te ≤ f x) ∧ te ≤ tExit ∧ (te = tExit ∨ ∃ x ∈ o, boxes ops x ≠ none ∧ te = f x) := by
  obtain ⟨N, hN⟩ := C93_found_partial hn hd hi h a b gx gy tExit ht f
  refine ⟨N, fun fuel hfl => ?_⟩
  obtain ⟨s', o, te, e, _, _, _, _, hm, hle, hb, heq, hall⟩ := hN fuel hfl
  refine ⟨s', o, te, e, fun x hx => ?_, hle, heq.imp id fun ⟨x, h1, h2⟩ => ⟨x, h1, hm x h1, h2⟩⟩
  by_contra hlt
  rw [not_le] at hlt
  obtain ⟨bb, hbb⟩ := Option.ne_none_iff_exists'.1 hx
  obtain ⟨h1, h2, h3⟩ := hf x bb hbb (lt_of_lt_of_le hlt hle)
  exact absurd (hb x (hall x bb (f x) hbb h1 hlt h2 h3)) (not_le.2 hlt)

/-! ### Where it goes wrong -/

/-- A shape in the cell left of the line `x = 0`. -/
def lineOps : List (HOp ℚ) := [.insert 5 0 ⟨-3/4, 1/4, -1/2, 3/4⟩]
def lineHash : St := (follow 1 lineOps [] (Hash.empty 7)).getD (Hash.empty 7)

theorem lineOps_reached : Hashed (1 : ℚ) 7 lineOps lineHash := by
  have hs : (follow 1 lineOps [] (Hash.empty 7)).isSome = true := by decide +kernel
  obtain ⟨t, ht⟩ := Option.isSome_iff_exists.1 hs
  have : lineHash = t := by unfold lineHash; rw [ht]; rfl
  rw [this]
  simpa using follow_ok (by norm_num) lineOps [] _ t .nil ht

/-- **C93** A ray starting on a line of the grid and going left misses a box that it goes right through. -/
theorem C93_line_start : Hashed (1 : ℚ) 7 lineOps lineHash ∧ boxes lineOps 5 = some ⟨-3/4, 1/4, -1/2, 3/4⟩ ∧
    inBox (onSeg (⟨0, 1/2⟩ : V2 ℚ) ⟨-1, 1/2⟩ (5/8)) ⟨-3/4, 1/4, -1/2, 3/4⟩ ∧
    ((segmentQuery (1 : ℚ) 1000 lineHash ⟨0, 1/2⟩ ⟨-1, 1/2⟩ 1 (fun _ => 1/2) 10).map (·.2)) = some ([], 1) := by
  refine ⟨lineOps_reached, by decide +kernel, by unfold inBox onSeg; decide +kernel, by decide +kernel⟩

/-- Coming from a little further right it is found. -/
example : GoodStart (1 : ℚ) 1000 (1/2) (-1) ∧ GoodStart (1 : ℚ) 1000 (1/2) (1/2) ∧ ¬ AtCorner (1 : ℚ) ⟨1/2, 1/2⟩ ⟨-1, 1/2⟩ (2/3) ∧
    inBox (onSeg (⟨1/2, 1/2⟩ : V2 ℚ) ⟨-1, 1/2⟩ (2/3)) ⟨-3/4, 1/4, -1/2, 3/4⟩ ∧
    ((segmentQuery (1 : ℚ) 1000 lineHash ⟨1/2, 1/2⟩ ⟨-1, 1/2⟩ 1 (fun _ => 2/3) 10).map (·.2)) = some ([5], 2/3) := by
  have hl : ¬ onLine (1 : ℚ) (1/2) := by
    rintro ⟨k, hk⟩
    have h2 : (2 * k : ℚ) = 1 := by linarith
    have : (2 * k : Int) = 1 := by exact_mod_cast h2
    omega
  have hfl : ⌊(1/2 : ℚ) / 1⌋ = 0 := by decide +kernel
  refine ⟨⟨fun _ => hl, fun h => by norm_num at h⟩, ⟨fun h => by norm_num at h, fun _ _ => by rw [hfl]; norm_num⟩, ?_, ?_, by decide +kernel⟩
  · rintro ⟨_, h, _⟩; norm_num at h
  · unfold inBox onSeg; decide +kernel

/-- **C93** A box met only in a corner of the grid may be missed. -/
theorem C93_corner : ∃ ops : List (HOp ℚ), ∃ s bb, Hashed (1 : ℚ) 7 ops s ∧ boxes ops 5 = some bb ∧
    inBox (onSeg (⟨1/2, -1/2⟩ : V2 ℚ) ⟨-1/2, 1/2⟩ (1/2)) bb ∧
    ((segmentQuery (1 : ℚ) 1000 s ⟨1/2, -1/2⟩ ⟨-1/2, 1/2⟩ 1 (fun _ => 1/2) 10).map (·.2)) = some ([], 1) := by
  let ops : List (HOp ℚ) := [.insert 5 0 ⟨0, 0, 1/2, 1/2⟩]
  have hs : (follow 1 ops [] (Hash.empty 7)).isSome = true := by decide +kernel
  obtain ⟨t, ht⟩ := Option.isSome_iff_exists.1 hs
  have e : (follow 1 ops [] (Hash.empty 7)).getD (Hash.empty 7) = t := by rw [ht]; rfl
  refine ⟨ops, _, ⟨0, 0, 1/2, 1/2⟩, by simpa using follow_ok (by norm_num) ops [] _ t .nil ht, by decide +kernel, by unfold inBox onSeg; decide +kernel, ?_⟩
  rw [← e]
  decide +kernel

end Cm
