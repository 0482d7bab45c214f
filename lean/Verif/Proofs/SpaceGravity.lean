import Verif.Proofs.SpaceRemove

/-!
Changing the gravity (space.go:143-150) and removing a body with its shapes (space.go:358-363): both loop over a list
that the body of the loop changes.
-/

set_option linter.unusedSectionVars false
set_option linter.unusedSimpArgs false
set_option linter.unusedVariables false

namespace Cm
namespace Sp

variable {K : Type} [Zero K] [LT K] [DecidableRel (α := K) (· < ·)] [Add K]

theorem wakeShapes_sleeping : ∀ (l : List Nat) (s s' : St K), wakeShapes s l = some s' → s'.sleeping = s.sleeping
  | [], s, s', h => by rw [wakeShapes, Option.some.injEq] at h; rw [h]
  | x :: l, s, s', h => by
    rw [wakeShapes] at h
    split at h
    · cases h
    · have := wakeShapes_sleeping l _ s' h
      exact this

theorem wakeArbs_sleeping (b : Nat) : ∀ (l : List Nat) (s : St K), (wakeArbs s b l).sleeping = s.sleeping
  | [], s => rfl
  | r :: l, s => by
    rw [wakeArbs, wakeArbs_sleeping b l]
    split
    · unfold restoreArb; simp only [St.setA]; split <;> rfl
    · rfl

theorem wakeCons_sleeping (b : Nat) : ∀ (l : List Nat) (s : St K), (wakeCons s b l).sleeping = s.sleeping
  | [], s => rfl
  | r :: l, s => by
    rw [wakeCons, wakeCons_sleeping b l]
    split <;> rfl

theorem spaceActivate_sleeping {s s' : St K} {b : Nat} (h : spaceActivate s b = some s') : s'.sleeping = s.sleeping := by
  unfold spaceActivate at h
  split at h
  · rw [Option.some.injEq] at h; rw [← h]; split <;> rfl
  · unfold wakeBody at h
    split at h
    · cases h
    · rename_i s1 e1
      rw [Option.some.injEq] at h
      rw [← h, wakeCons_sleeping, wakeArbs_sleeping]
      have := wakeShapes_sleeping _ _ _ e1
      exact this

theorem activateLoop_sleeping : ∀ (n : Nat) (s s' : St K) (o : Option Nat), activateLoop n s o = some s' → s'.sleeping = s.sleeping
  | 0, s, s', o, h => by rw [activateLoop] at h; cases h
  | n + 1, s, s', none, h => by rw [activateLoop, Option.some.injEq] at h; rw [h]
  | n + 1, s, s', some b, h => by
    rw [activateLoop] at h
    split at h
    · cases h
    · rename_i s1 e1
      rw [activateLoop_sleeping n _ s' _ h, spaceActivate_sleeping e1]; rfl

/-- Waking takes the group off the list of groups asleep. -/
theorem activate_sleeping {s s' : St K} {b : Nat} (G : Good s) (h : activate s b = some s') :
    s'.sleeping = match (s.bd b).root with | none => s.sleeping | some r => s.sleeping.erase r := by
  cases hr : (s.bd b).root with
  | none =>
    unfold activate at h
    split at h
    · rw [Option.some.injEq] at h; rw [h]
    · have e : ((s.setB b fun d => { d with idle := 0 }).bd b).root = none := by simp [St.setB, hr]
      simp only [e] at h
      rw [Option.some.injEq] at h
      rw [← h, (touchIdle_same _ _ _).1.rest]; rfl
  | some r =>
    simp only
    obtain ⟨hm, l, h1, h2, h3, h4, h5⟩ := G.inv.groupList (by simp) hr
    have hk := (G.inv.groups.root b r (by simp) hr).2.1
    unfold activate at h
    rw [if_neg (by simp [hk])] at h
    have e : ((s.setB b fun d => { d with idle := 0 }).bd b).root = some r := by simp [St.setB, hr]
    have e2 : ((s.setB b fun d => { d with idle := 0 }).bd r).root = some r := by
      simp only [St.setB]; split
      · rename_i e'; rw [← e']; exact h5
      · exact h5
    simp only [e, e2, Option.isSome_some, if_true] at h
    split at h
    · cases h
    · rename_i s3 e3
      rw [Option.some.injEq] at h
      rw [← h, (touchIdle_same _ _ _).1.rest]
      split at e3
      · cases e3
      · rename_i s2 e4
        rw [Option.some.injEq] at e3
        rw [← e3]
        show s2.sleeping.erase r = _
        rw [activateLoop_sleeping _ _ _ _ e4]; rfl

/-- Every second element. -/
def seconds : List Nat → List Nat
  | _ :: y :: l => y :: seconds l
  | _ => []

theorem Good.member {s : St K} (G : Good s) {r : Nat} (hr : r ∈ s.sleeping) : (s.bd r).root = some r ∧ (s.bd r).kind = .dynamic := by
  obtain ⟨l, h1, h2, h3⟩ := G.inv.groups.chain r hr
  cases l with
  | nil => simp [Path] at h1
  | cons c l =>
    obtain ⟨rfl, _⟩ := h1
    have := ((h3 r).1 List.mem_cons_self).2
    exact ⟨this, (G.inv.groups.root r r (by simp) this).2.1⟩

/-- The rounds of the loop that find nothing new. -/
theorem gravityLoop_rest {z : Nat} {n : Nat} {arr : List Nat} (hn : arr.length = n) : ∀ (m : Nat) (s : St K) (i : Nat), Good s →
    (∀ j, i ≤ j → j < n → arr[j]? = some z) → (s.bd z).root = none → n - i < m →
    ∃ s', gravityLoop m s arr i n = some s' ∧ Good s' ∧ WokenAll s s' ∧ s'.sleeping = s.sleeping
  | 0, s, i, G, hz, hr, hm => by omega
  | m + 1, s, i, G, hz, hr, hm => by
    rw [gravityLoop]
    by_cases hi : i < n
    · rw [if_pos hi, hz i (le_refl i) hi]
      simp only
      obtain ⟨s1, e1, H1, w1⟩ := activate_ok G.ok z
      have G1 := G.woken H1 w1
      rw [e1]
      simp only
      have hsl := activate_sleeping G e1
      rw [hr] at hsl
      simp only at hsl
      rw [if_neg (by rw [hsl]; exact lt_irrefl _)]
      obtain ⟨s2, e2, G2, w2, sl2⟩ := gravityLoop_rest hn m s1 (i + 1) G1 (fun j h1 h2 => hz j (by omega) h2) (w1.awakeB G.inv) (by omega)
      exact ⟨s2, e2, G2, w1.all.trans w2, sl2.trans hsl⟩
    · rw [if_neg hi]; exact ⟨s, rfl, G, WokenAll.refl s, rfl⟩

theorem shiftLeft_eq (pre rest post : List Nat) (x : Nat) :
    shiftLeft (pre ++ x :: rest ++ post) pre.length (pre ++ x :: rest).length = pre ++ rest ++ ((x :: rest).getLast (by simp) :: post) := by
  unfold shiftLeft
  have h1 : (pre ++ x :: rest ++ post).take pre.length = pre := by simp
  have h2 : (pre ++ x :: rest ++ post).take (pre ++ x :: rest).length = pre ++ x :: rest := List.take_left
  have h3 : (pre ++ x :: rest).drop (pre.length + 1) = rest := by simp [List.drop_append]
  have h4 : (pre ++ x :: rest ++ post).drop ((pre ++ x :: rest).length - 1) = (x :: rest).getLast (by simp) :: post := by
    have e : pre ++ x :: rest = (pre ++ (x :: rest).dropLast) ++ [(x :: rest).getLast (by simp)] := by
      rw [List.append_assoc, List.dropLast_append_getLast]
    rw [e]
    have e2 : ((pre ++ (x :: rest).dropLast) ++ [(x :: rest).getLast (by simp)]).length - 1 = (pre ++ (x :: rest).dropLast).length := by
      simp
    rw [e2, List.append_assoc, List.drop_left]
    rfl
  rw [h1, h2, h3, h4]

theorem gravityLoop_ok {z n : Nat} : ∀ (m : Nat) (s : St K) (pre rest : List Nat), Good s → s.sleeping = pre ++ rest →
    (pre ++ rest).getLast? = some z → n = 2 * pre.length + rest.length → n - pre.length < m →
    ∃ s', gravityLoop m s (pre ++ rest ++ List.replicate pre.length z) pre.length n = some s' ∧ Good s' ∧ WokenAll s s' ∧
      s'.sleeping = (pre ++ seconds rest).erase z
  | 0, s, pre, rest, G, hs, hz, hn, hm => by omega
  | m + 1, s, pre, [], G, hs, hz, hn, hm => by
    rw [List.append_nil] at *
    rw [gravityLoop]
    have hp : pre ≠ [] := by rintro rfl; simp at hz
    have hpos : 0 < pre.length := List.length_pos_iff.2 hp
    simp only [List.length_nil] at hn
    rw [if_pos (by omega)]
    have hget : ∀ j, pre.length ≤ j → j < n → (pre ++ List.replicate pre.length z)[j]? = some z := by
      intro j h1 h2
      rw [List.getElem?_append_right h1, List.getElem?_replicate_of_lt (by omega)]
    rw [hget _ (le_refl _) (by omega)]
    simp only
    have hzm : z ∈ s.sleeping := by rw [hs]; exact List.mem_of_getLast? hz
    obtain ⟨s1, e1, H1, w1⟩ := activate_ok G.ok z
    have G1 := G.woken H1 w1
    rw [e1]
    simp only
    have hsl := activate_sleeping G e1
    rw [(G.member hzm).1] at hsl
    simp only at hsl
    have hlen : s1.sleeping.length < s.sleeping.length := by
      rw [hsl, List.length_erase_of_mem hzm]
      have := List.length_pos_iff.2 (List.ne_nil_of_mem hzm); omega
    rw [if_pos hlen]
    -- the array is not changed
    obtain ⟨q, rfl⟩ : ∃ q, pre = q ++ [z] := by
      refine ⟨pre.dropLast, ?_⟩
      have := List.dropLast_append_getLast hp
      rw [List.getLast?_eq_getLast_of_ne_nil hp, Option.some.injEq] at hz
      rw [← hz, this]
    have hnd : (q ++ [z]).Nodup := by rw [← hs]; exact G.inv.groups.nodup
    have hzq : z ∉ q := by
      rw [List.nodup_append] at hnd
      intro h; exact hnd.2.2 z h z (by simp) rfl
    have hidx : s.sleeping.idxOf z = q.length := by
      rw [hs, List.idxOf_append_of_notMem hzq]; simp
    have harr : shiftLeft (q ++ [z] ++ List.replicate (q ++ [z]).length z) (s.sleeping.idxOf z) s.sleeping.length =
        q ++ [z] ++ List.replicate (q ++ [z]).length z := by
      rw [hidx, hs, shiftLeft_eq]
      simp
    rw [harr]
    obtain ⟨s2, e2, G2, w2, sl2⟩ := gravityLoop_rest (z := z) (n := n) (arr := q ++ [z] ++ List.replicate (q ++ [z]).length z) (by simp at hn ⊢; omega)
      m s1 ((q ++ [z]).length + 1) G1 (fun j h1 h2 => hget j (by omega) h2) (w1.awakeB G.inv) (by omega)
    refine ⟨s2, e2, G2, w1.all.trans w2, ?_⟩
    rw [sl2, hsl, hs]; simp [seconds]
  | m + 1, s, pre, [x], G, hs, hz, hn, hm => by
    have hxz : x = z := by simpa using hz
    subst hxz
    rw [gravityLoop]
    simp only [List.length_singleton] at hn
    rw [if_pos (by omega)]
    have hg : (pre ++ [x] ++ List.replicate pre.length x)[pre.length]? = some x := by
      simp
    rw [hg]
    simp only
    have hzm : x ∈ s.sleeping := by rw [hs]; simp
    obtain ⟨s1, e1, H1, w1⟩ := activate_ok G.ok x
    have G1 := G.woken H1 w1
    rw [e1]
    simp only
    have hsl := activate_sleeping G e1
    rw [(G.member hzm).1] at hsl
    simp only at hsl
    have hlen : s1.sleeping.length < s.sleeping.length := by
      rw [hsl, List.length_erase_of_mem hzm]
      have := List.length_pos_iff.2 (List.ne_nil_of_mem hzm); omega
    rw [if_pos hlen]
    have hnd : (pre ++ [x]).Nodup := by rw [← hs]; exact G.inv.groups.nodup
    have hzq : x ∉ pre := by
      rw [List.nodup_append] at hnd
      intro h; exact hnd.2.2 x h x (by simp) rfl
    have hidx : s.sleeping.idxOf x = pre.length := by
      rw [hs, List.idxOf_append_of_notMem hzq]; simp
    have harr : shiftLeft (pre ++ [x] ++ List.replicate pre.length x) (s.sleeping.idxOf x) s.sleeping.length =
        pre ++ [x] ++ List.replicate pre.length x := by
      rw [hidx, hs, shiftLeft_eq]
      simp
    rw [harr]
    have hget : ∀ j, pre.length ≤ j → j < n → (pre ++ [x] ++ List.replicate pre.length x)[j]? = some x := by
      intro j h1 h2
      rw [List.append_assoc, List.getElem?_append_right h1]
      have e : [x] ++ List.replicate pre.length x = List.replicate (pre.length + 1) x := by
        rw [List.replicate_succ]; rfl
      rw [e, List.getElem?_replicate_of_lt (by omega)]
    obtain ⟨s2, e2, G2, w2, sl2⟩ := gravityLoop_rest (z := x) (n := n) (arr := pre ++ [x] ++ List.replicate pre.length x) (by simp; omega)
      m s1 (pre.length + 1) G1 (fun j h1 h2 => hget j (by omega) h2) (w1.awakeB G.inv) (by omega)
    refine ⟨s2, e2, G2, w1.all.trans w2, ?_⟩
    rw [sl2, hsl, hs, List.erase_append_right _ hzq]
    simp [seconds, List.erase_of_not_mem hzq]
  | m + 1, s, pre, x :: y :: rest, G, hs, hz, hn, hm => by
    rw [gravityLoop]
    simp only [List.length_cons] at hn
    rw [if_pos (by omega)]
    have hg : (pre ++ x :: y :: rest ++ List.replicate pre.length z)[pre.length]? = some x := by
      simp
    rw [hg]
    simp only
    have hzm : x ∈ s.sleeping := by rw [hs]; simp
    obtain ⟨s1, e1, H1, w1⟩ := activate_ok G.ok x
    have G1 := G.woken H1 w1
    rw [e1]
    simp only
    have hsl := activate_sleeping G e1
    rw [(G.member hzm).1] at hsl
    simp only at hsl
    have hlen : s1.sleeping.length < s.sleeping.length := by
      rw [hsl, List.length_erase_of_mem hzm]
      have := List.length_pos_iff.2 (List.ne_nil_of_mem hzm); omega
    rw [if_pos hlen]
    have hnd : (pre ++ x :: y :: rest).Nodup := by rw [← hs]; exact G.inv.groups.nodup
    have hzq : x ∉ pre := by
      rw [List.nodup_append] at hnd
      intro h; exact hnd.2.2 x h x (by simp) rfl
    have hidx : s.sleeping.idxOf x = pre.length := by
      rw [hs, List.idxOf_append_of_notMem hzq]; simp
    have hlast : (x :: y :: rest).getLast (by simp) = z := by
      rw [List.getLast?_append_of_ne_nil _ (by simp), List.getLast?_eq_getLast_of_ne_nil (by simp), Option.some.injEq] at hz
      exact hz
    have harr : shiftLeft (pre ++ x :: y :: rest ++ List.replicate pre.length z) (s.sleeping.idxOf x) s.sleeping.length =
        (pre ++ [y]) ++ rest ++ List.replicate (pre ++ [y]).length z := by
      rw [hidx, hs, shiftLeft_eq, hlast]
      simp [List.replicate_succ]
    rw [harr]
    have hs1 : s1.sleeping = (pre ++ [y]) ++ rest := by
      rw [hsl, hs, List.erase_append_right _ hzq]; simp
    obtain ⟨s2, e2, G2, w2, sl2⟩ := gravityLoop_ok (z := z) (n := n) m s1 (pre ++ [y]) rest G1 hs1
      (by
        rw [List.append_assoc, List.getLast?_append_of_ne_nil _ (by simp)]
        rw [List.getLast?_append_of_ne_nil _ (by simp), List.getLast?_cons_cons] at hz
        exact hz)
      (by simp; omega) (by simp; omega)
    have e2' : gravityLoop m s1 (pre ++ [y] ++ rest ++ List.replicate (pre ++ [y]).length z) (pre.length + 1) n = some s2 := by
      have : (pre ++ [y]).length = pre.length + 1 := by simp
      rw [← e2, this]
    refine ⟨s2, e2', G2, w1.all.trans w2, ?_⟩
    rw [sl2]; simp [seconds]

theorem setGravity_good {s : St K} (G : Good s) : ∃ s', setGravity s = some s' ∧ Good s' ∧ WokenAll s s' ∧
    s'.sleeping = match s.sleeping.getLast? with | none => [] | some z => (seconds s.sleeping).erase z := by
  unfold setGravity
  cases hz : s.sleeping.getLast? with
  | none =>
    have : s.sleeping = [] := by simpa using hz
    rw [this]
    exact ⟨s, by simp [gravityLoop], G, WokenAll.refl s, this⟩
  | some z =>
    obtain ⟨s', e, G', w, sl⟩ := gravityLoop_ok (z := z) (n := s.sleeping.length) (s.sleeping.length + 1) s [] s.sleeping G rfl
      (by simpa using hz) (by simp) (by simp)
    refine ⟨s', by simpa using e, G', w, by simpa using sl⟩

end Sp
end Cm
