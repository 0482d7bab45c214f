import Verif.Model.Polyline
import Verif.Props.Body
import Mathlib.Data.List.Perm.Basic
import Mathlib.Data.List.Count
import Mathlib.Tactic.Common
/-! # C53, C81: collecting segments into polylines -/
set_option linter.unusedSectionVars false
set_option linter.unusedSimpArgs false
set_option linter.unusedVariables false

namespace Cm
open Spec
variable {K : Type} [Field K] [LinearOrder K]

namespace Spec
/-- The consecutive pairs of vertexes of a line. -/
def pairs : Line K → List (V2 K × V2 K)
  | [] => []
  | [_] => []
  | a :: b :: l => (a, b) :: pairs (b :: l)

/-- All pairs of all lines. -/
def allPairs (lines : List (Line K)) : List (V2 K × V2 K) := lines.flatMap pairs
end Spec

theorem pairs_push (l : Line K) (u v : V2 K) (h : l.getLast? = some u) : pairs (l ++ [v]) = pairs l ++ [(u, v)] := by
  induction l with
  | nil => simp at h
  | cons a l ih =>
    cases l with
    | nil => simp at h; subst h; rfl
    | cons b l =>
      have := ih (by simpa using h)
      simp only [List.cons_append, pairs] at *
      rw [this]

theorem pairs_append (l m : Line K) (u v : V2 K) (h : l.getLast? = some u) (hm : m.head? = some v) :
    pairs (l ++ m) = pairs l ++ (u, v) :: pairs m := by
  induction l with
  | nil => simp at h
  | cons a l ih =>
    cases l with
    | nil =>
      simp at h; subst h
      cases m with
      | nil => simp at hm
      | cons w m => simp at hm; subst hm; rfl
    | cons b l =>
      have := ih (by simpa using h)
      simp only [List.cons_append, pairs] at *
      rw [this]

theorem pairs_enqueue (l : Line K) (u v : V2 K) (h : l.head? = some v) : pairs (u :: l) = (u, v) :: pairs l := by
  cases l with
  | nil => simp at h
  | cons a l => simp at h; subst h; rfl

/-! ## The four ways a segment is added -/

/-- What collecting the segment from `v0` to `v1` may do, up to the order of the lines. -/
inductive Added (v0 v1 : V2 K) (lines result : List (Line K)) : Prop
  | close (l : Line K) (rest : List (Line K)) : lines.Perm (l :: rest) → l.getLast? = some v0 → l.head? = some v1 →
      result.Perm ((l ++ [v1]) :: rest) → Added v0 v1 lines result
  | join (l m : Line K) (rest : List (Line K)) : lines.Perm (l :: m :: rest) → l.getLast? = some v0 → m.head? = some v1 →
      result.Perm ((l ++ m) :: rest) → Added v0 v1 lines result
  | push (l : Line K) (rest : List (Line K)) : lines.Perm (l :: rest) → l.getLast? = some v0 → (∀ m ∈ lines, m.head? ≠ some v1) →
      result.Perm ((l ++ [v1]) :: rest) → Added v0 v1 lines result
  | enqueue (l : Line K) (rest : List (Line K)) : lines.Perm (l :: rest) → l.head? = some v1 → (∀ m ∈ lines, m.getLast? ≠ some v0) →
      result.Perm ((v0 :: l) :: rest) → Added v0 v1 lines result
  | fresh : (∀ m ∈ lines, m.getLast? ≠ some v0) → (∀ m ∈ lines, m.head? ≠ some v1) → result.Perm ([v0, v1] :: lines) → Added v0 v1 lines result

theorem perm_erase (lines : List (Line K)) (i : Nat) (h : i < lines.length) : lines.Perm (lines[i] :: lines.eraseIdx i) :=
  (List.getElem_cons_eraseIdx_perm h).symm

theorem set_perm (lines : List (Line K)) (i : Nat) (h : i < lines.length) (x : Line K) : (lines.set i x).Perm (x :: lines.eraseIdx i) := by
  have h' : i < (lines.set i x).length := by simpa using h
  have := perm_erase (lines.set i x) i h'
  rw [List.getElem_set_self, List.eraseIdx_set_eq] at this
  exact this

theorem getD_line (lines : List (Line K)) (i : Nat) (h : i < lines.length) : lines.getD i [] = lines[i] := by
  simp [List.getD, h]

theorem collect_added (v0 v1 : V2 K) (lines : List (Line K)) : Added v0 v1 lines (collectSegment v0 v1 lines) := by
  unfold collectSegment
  have hE : ∀ i, findEnds lines v0 = some i → ∃ h : i < lines.length, lines[i].getLast? = some v0 := by
    intro i h
    unfold findEnds at h
    rw [List.findIdx?_eq_some_iff_getElem] at h
    obtain ⟨h1, h2, -⟩ := h
    exact ⟨h1, by simpa using h2⟩
  have hS : ∀ i, findStarts lines v1 = some i → ∃ h : i < lines.length, lines[i].head? = some v1 := by
    intro i h
    unfold findStarts at h
    rw [List.findIdx?_eq_some_iff_getElem] at h
    obtain ⟨h1, h2, -⟩ := h
    exact ⟨h1, by simpa using h2⟩
  have hE' : findEnds lines v0 = none → ∀ m ∈ lines, m.getLast? ≠ some v0 := by
    intro h m hm
    unfold findEnds at h
    rw [List.findIdx?_eq_none_iff] at h
    simpa using h m hm
  have hS' : findStarts lines v1 = none → ∀ m ∈ lines, m.head? ≠ some v1 := by
    intro h m hm
    unfold findStarts at h
    rw [List.findIdx?_eq_none_iff] at h
    simpa using h m hm
  cases he : findEnds lines v0 with
  | some b =>
    obtain ⟨hb, hbl⟩ := hE b he
    cases hs : findStarts lines v1 with
    | some a =>
      obtain ⟨ha, hal⟩ := hS a hs
      simp only
      split
      · rename_i hab
        subst hab
        refine .close lines[b] _ (perm_erase lines b hb) hbl hal ?_
        unfold pushLine
        rw [getD_line lines b hb]
        exact set_perm lines b hb _
      · rename_i hab
        unfold joinLines
        rw [getD_line lines b hb, getD_line lines a ha]
        set x := lines[b] ++ lines[a] with hx
        have ha' : a < (lines.set b x).length := by simpa using ha
        have p1 := perm_erase (lines.set b x) a ha'
        rw [List.getElem_set_ne hab] at p1
        have p2 := set_perm lines b hb x
        have p3 := perm_erase lines b hb
        have hmem : lines[a] ∈ lines.eraseIdx b := by
          rw [List.mem_eraseIdx_iff_getElem]
          exact ⟨a, ha, fun e => hab e.symm, rfl⟩
        obtain ⟨rest, hrest⟩ : ∃ rest, (lines.eraseIdx b).Perm (lines[a] :: rest) := ⟨_, List.perm_cons_erase hmem⟩
        refine .join lines[b] lines[a] rest (p3.trans (List.Perm.cons _ hrest)) hbl hal ?_
        have p4 : (lines[a] :: (lines.set b x).eraseIdx a).Perm (lines[a] :: x :: rest) :=
          p1.symm.trans (p2.trans ((List.Perm.cons _ hrest).trans (List.Perm.swap _ _ _)))
        exact (List.perm_cons _).1 p4
    | none =>
      refine .push lines[b] _ (perm_erase lines b hb) hbl (hS' hs) ?_
      simp only [pushLine]
      rw [getD_line lines b hb]
      exact set_perm lines b hb _
  | none =>
    cases hs : findStarts lines v1 with
    | some a =>
      obtain ⟨ha, hal⟩ := hS a hs
      refine .enqueue lines[a] _ (perm_erase lines a ha) hal (hE' he) ?_
      simp only [enqueueLine]
      rw [getD_line lines a ha]
      exact set_perm lines a ha _
    | none => exact .fresh (hE' he) (hS' hs) (List.perm_append_comm (l₁ := lines) (l₂ := [[v0, v1]]))

/-! ## C53 -/

theorem allPairs_perm {l m : List (Line K)} (h : l.Perm m) : (allPairs l).Perm (allPairs m) := h.flatMap_right _

theorem added_pairs (v0 v1 : V2 K) (lines result : List (Line K)) (h : Added v0 v1 lines result) :
    (allPairs result).Perm ((v0, v1) :: allPairs lines) := by
  cases h with
  | close l rest h1 h2 h3 h4 =>
    refine (allPairs_perm h4).trans (List.Perm.trans ?_ (List.Perm.cons _ (allPairs_perm h1).symm))
    simp only [allPairs, List.flatMap_cons, pairs_push l v0 v1 h2, List.append_assoc, List.singleton_append]
    exact List.perm_middle
  | join l m rest h1 h2 h3 h4 =>
    refine (allPairs_perm h4).trans (List.Perm.trans ?_ (List.Perm.cons _ (allPairs_perm h1).symm))
    simp only [allPairs, List.flatMap_cons, pairs_append l m v0 v1 h2 h3, List.append_assoc, List.cons_append]
    exact List.perm_middle
  | push l rest h1 h2 h3 h4 =>
    refine (allPairs_perm h4).trans (List.Perm.trans ?_ (List.Perm.cons _ (allPairs_perm h1).symm))
    simp only [allPairs, List.flatMap_cons, pairs_push l v0 v1 h2, List.append_assoc, List.singleton_append]
    exact List.perm_middle
  | enqueue l rest h1 h2 h3 h4 =>
    refine (allPairs_perm h4).trans (List.Perm.trans ?_ (List.Perm.cons _ (allPairs_perm h1).symm))
    simp only [allPairs, List.flatMap_cons, pairs_enqueue l v0 v1 h2, List.append_assoc, List.cons_append]
    exact List.Perm.refl _
  | fresh h1 h2 h3 => exact allPairs_perm h3

/-- **C53.** After collecting any sequence of segments into any set of lines, the pairs of consecutive vertexes over all lines are, with
multiplicity, those there were before and the segments collected. -/
theorem C53_pairs (segs : List (V2 K × V2 K)) : ∀ lines : List (Line K),
    (allPairs (collectAll segs lines)).Perm (segs ++ allPairs lines) := by
  induction segs with
  | nil => intro lines; exact List.Perm.refl _
  | cons s segs ih =>
    intro lines
    have := ih (collectSegment s.1 s.2 lines)
    refine List.Perm.trans this ?_
    refine (List.Perm.append_left segs (added_pairs _ _ _ _ (collect_added s.1 s.2 lines))).trans ?_
    exact List.perm_middle

/-- **C53.** From the empty set: exactly the segments, and every line has at least two vertexes. -/
theorem C53_collect (segs : List (V2 K × V2 K)) :
    (allPairs (collectAll segs [])).Perm segs ∧ ∀ l ∈ collectAll segs [], 2 ≤ l.length := by
  constructor
  · have := C53_pairs segs []
    simpa [allPairs] using this
  · have key : ∀ (segs : List (V2 K × V2 K)) (lines : List (Line K)), (∀ l ∈ lines, 2 ≤ l.length) → ∀ l ∈ collectAll segs lines, 2 ≤ l.length := by
      intro segs
      induction segs with
      | nil => intro lines h; exact h
      | cons s segs ih =>
        intro lines h
        apply ih
        intro l hl
        have hA := collect_added s.1 s.2 lines
        cases hA with
        | close x rest h1 h2 h3 h4 =>
          rcases List.mem_cons.1 (h4.mem_iff.1 hl) with rfl | hm
          · have := h x (h1.mem_iff.2 (by simp)); simp; omega
          · exact h l (h1.mem_iff.2 (by simp [hm]))
        | join x y rest h1 h2 h3 h4 =>
          rcases List.mem_cons.1 (h4.mem_iff.1 hl) with rfl | hm
          · have := h x (h1.mem_iff.2 (by simp)); simp; omega
          · exact h l (h1.mem_iff.2 (by simp [hm]))
        | push x rest h1 h2 h3 h4 =>
          rcases List.mem_cons.1 (h4.mem_iff.1 hl) with rfl | hm
          · have := h x (h1.mem_iff.2 (by simp)); simp; omega
          · exact h l (h1.mem_iff.2 (by simp [hm]))
        | enqueue x rest h1 h2 h3 h4 =>
          rcases List.mem_cons.1 (h4.mem_iff.1 hl) with rfl | hm
          · have := h x (h1.mem_iff.2 (by simp)); simp; omega
          · exact h l (h1.mem_iff.2 (by simp [hm]))
        | fresh h1 h2 h3 =>
          rcases List.mem_cons.1 (h3.mem_iff.1 hl) with rfl | hm
          · simp
          · exact h l hm
    exact key segs [] (by simp)

/-- A square collected out of order, with a tail: a join, a push, an enqueue and a closing. -/
example : collectAll ([(⟨0, 0⟩, ⟨1, 0⟩), (⟨1, 1⟩, ⟨0, 1⟩), (⟨1, 0⟩, ⟨1, 1⟩), (⟨0, 1⟩, ⟨0, 0⟩), (⟨5, 5⟩, ⟨6, 6⟩), (⟨4, 4⟩, ⟨5, 5⟩)] : List (V2 ℚ × V2 ℚ)) [] =
    [[⟨0, 0⟩, ⟨1, 0⟩, ⟨1, 1⟩, ⟨0, 1⟩, ⟨0, 0⟩], [⟨4, 4⟩, ⟨5, 5⟩, ⟨6, 6⟩]] := by decide +kernel

/-! ## C81: balanced segments give closed lines -/

namespace Spec
/-- How many segments start, and end, at a point. -/
def outs (segs : List (V2 K × V2 K)) (v : V2 K) : Nat := (segs.map Prod.fst).count v
def ins (segs : List (V2 K × V2 K)) (v : V2 K) : Nat := (segs.map Prod.snd).count v

/-- No line ends where another starts. -/
def Apart (l m : Line K) : Prop := (∀ v, l.getLast? = some v → m.head? ≠ some v) ∧ ∀ v, m.getLast? = some v → l.head? ≠ some v
end Spec

theorem Apart.symm {l m : Line K} (h : Apart l m) : Apart m l := ⟨h.2, h.1⟩

theorem pairs_fst (l : Line K) (hl : 2 ≤ l.length) (v : V2 K) (h : l.head? = some v) : ∃ w, (v, w) ∈ pairs l := by
  match l, hl with
  | a :: b :: l, _ => simp at h; subst h; exact ⟨b, by simp [pairs]⟩

theorem outs_append (a b : List (V2 K × V2 K)) (v : V2 K) : outs (a ++ b) v = outs a v + outs b v := by simp [outs, List.count_append]
theorem ins_append (a b : List (V2 K × V2 K)) (v : V2 K) : ins (a ++ b) v = ins a v + ins b v := by simp [ins, List.count_append]
theorem outs_perm {a b : List (V2 K × V2 K)} (h : a.Perm b) (v : V2 K) : outs a v = outs b v := (h.map _).count_eq v
theorem ins_perm {a b : List (V2 K × V2 K)} (h : a.Perm b) (v : V2 K) : ins a v = ins b v := (h.map _).count_eq v

theorem outs_pos (l : Line K) (hl : 2 ≤ l.length) (v : V2 K) (h : l.head? = some v) : 1 ≤ outs (pairs l) v := by
  obtain ⟨w, hw⟩ := pairs_fst l hl v h
  exact List.count_pos_iff.2 (List.mem_map.2 ⟨_, hw, rfl⟩)

/-- Over a line, starts and ends of its pairs cancel except at its two ends. -/
theorem line_balance (l : Line K) (hl : l ≠ []) (v : V2 K) :
    outs (pairs l) v + (if l.getLast? = some v then 1 else 0) = ins (pairs l) v + (if l.head? = some v then 1 else 0) := by
  induction l with
  | nil => exact absurd rfl hl
  | cons a l ih =>
    cases l with
    | nil => simp [outs, ins, pairs]
    | cons b l =>
      have := ih (by simp)
      simp only [pairs, outs, ins, List.map_cons, List.count_cons, List.getLast?_cons_cons, List.head?_cons, Option.some.injEq, beq_iff_eq] at *
      omega

/-- The number of lines starting, and ending, at a point. -/
def starting (lines : List (Line K)) (v : V2 K) : Nat := lines.countP fun l => l.head? == some v
def ending (lines : List (Line K)) (v : V2 K) : Nat := lines.countP fun l => l.getLast? == some v

theorem lines_balance (lines : List (Line K)) (h : ∀ l ∈ lines, l ≠ []) (v : V2 K) :
    outs (allPairs lines) v + ending lines v = ins (allPairs lines) v + starting lines v := by
  induction lines with
  | nil => simp [outs, ins, allPairs, starting, ending]
  | cons l lines ih =>
    have h1 := ih fun m hm => h m (by simp [hm])
    have h2 := line_balance l (h l (by simp)) v
    simp only [allPairs, List.flatMap_cons, outs_append, ins_append, starting, ending, List.countP_cons, beq_iff_eq] at *
    omega

/-- **C81.** Whatever is collected: at every point as many lines end as start, up to the difference of segments ending and starting
there. -/
theorem C81_balance (segs : List (V2 K × V2 K)) (v : V2 K) :
    outs segs v + ending (collectAll segs []) v = ins segs v + starting (collectAll segs []) v := by
  obtain ⟨hp, hl⟩ := C53_collect segs
  have := lines_balance (collectAll segs []) (fun l hm e => by have := hl l hm; rw [e] at this; simp at this) v
  rw [outs_perm hp, ins_perm hp] at this
  exact this

theorem pairwise_perm {l m : List (Line K)} (h : l.Perm m) : l.Pairwise Apart ↔ m.Pairwise Apart :=
  h.pairwise_iff fun h => Apart.symm h

theorem added_apart (v0 v1 : V2 K) (lines result : List (Line K)) (h : Added v0 v1 lines result) (hlen : ∀ l ∈ lines, 2 ≤ l.length)
    (hout : outs (allPairs lines) v1 ≤ 1) (hp : lines.Pairwise Apart) : result.Pairwise Apart := by
  have hpush : ∀ (l : Line K) (rest : List (Line K)), lines.Perm (l :: rest) → l.getLast? = some v0 → (∀ m ∈ rest, m.head? ≠ some v1) →
      result.Perm ((l ++ [v1]) :: rest) → result.Pairwise Apart := by
    intro l rest h1 h2 h3 h4
    rw [pairwise_perm h4]
    rw [pairwise_perm h1] at hp
    rw [List.pairwise_cons] at hp ⊢
    refine ⟨fun m hm => ⟨fun v hv => ?_, fun v hv => ?_⟩, hp.2⟩
    · rw [List.getLast?_append] at hv
      simp at hv
      subst hv
      exact h3 m hm
    · have := (hp.1 m hm).2 v hv
      cases l with
      | nil => simp at h2
      | cons a l => simpa using this
  cases h with
  | close l rest h1 h2 h3 h4 =>
    refine hpush l rest h1 h2 (fun m hm e => ?_) h4
    have hl := outs_pos l (hlen l (h1.mem_iff.2 (by simp))) v1 h3
    have hm' := outs_pos m (hlen m (h1.mem_iff.2 (by simp [hm]))) v1 e
    rw [outs_perm (allPairs_perm h1)] at hout
    obtain ⟨s, t, rfl⟩ := List.append_of_mem hm
    simp only [allPairs, List.flatMap_cons, List.flatMap_append, outs_append] at hout
    omega
  | join l m rest h1 h2 h3 h4 =>
    rw [pairwise_perm h4]
    rw [pairwise_perm h1] at hp
    rw [List.pairwise_cons, List.pairwise_cons] at hp
    rw [List.pairwise_cons]
    refine ⟨fun x hx => ⟨fun v hv => ?_, fun v hv => ?_⟩, hp.2.2⟩
    · apply (hp.2.1 x hx).1 v
      rw [List.getLast?_append] at hv
      cases hm : m.getLast? with
      | none => rw [List.getLast?_eq_none_iff] at hm; subst hm; simp at h3
      | some w => rw [hm] at hv; simpa using hv
    · have := (hp.1 x (by simp [hx])).2 v hv
      cases l with
      | nil => simp at h2
      | cons a l => simpa using this
  | push l rest h1 h2 h3 h4 => exact hpush l rest h1 h2 (fun m hm => h3 m (h1.mem_iff.2 (by simp [hm]))) h4
  | enqueue l rest h1 h2 h3 h4 =>
    rw [pairwise_perm h4]
    rw [pairwise_perm h1] at hp
    rw [List.pairwise_cons] at hp ⊢
    refine ⟨fun m hm => ⟨fun v hv => ?_, fun v hv => ?_⟩, hp.2⟩
    · apply (hp.1 m hm).1 v
      cases l with
      | nil => simp at h2
      | cons a l => simpa using hv
    · intro e
      simp at e
      subst e
      exact h3 m (h1.mem_iff.2 (by simp [hm])) hv
  | fresh h1 h2 h3 =>
    rw [pairwise_perm h3, List.pairwise_cons]
    refine ⟨fun m hm => ⟨fun v hv => ?_, fun v hv => ?_⟩, hp⟩
    · simp at hv; subst hv; exact h2 m hm
    · intro e
      simp at e
      subst e
      exact h1 m hm hv

/-- **C81.** If every point starts at most one of the segments and ends as many as it starts, every collected line is closed. -/
theorem C81_closed (segs : List (V2 K × V2 K)) (h1 : ∀ v, outs segs v ≤ 1) (h2 : ∀ v, outs segs v = ins segs v) :
    ∀ l ∈ collectAll segs [], isClosed l = true := by
  have key : ∀ (segs : List (V2 K × V2 K)) (lines : List (Line K)), (∀ v, outs segs v + outs (allPairs lines) v ≤ 1) →
      (∀ l ∈ lines, 2 ≤ l.length) → lines.Pairwise Apart → (collectAll segs lines).Pairwise Apart := by
    intro segs
    induction segs with
    | nil => intro lines _ _ h; exact h
    | cons s segs ih =>
      intro lines hb hlen hp
      have hadd := collect_added s.1 s.2 lines
      have hpp := added_pairs _ _ _ _ hadd
      apply ih
      · intro v
        rw [outs_perm hpp]
        have := hb v
        have e1 : outs (s :: segs) v = outs [s] v + outs segs v := outs_append [s] segs v
        have e2 : outs ((s.1, s.2) :: allPairs lines) v = outs [s] v + outs (allPairs lines) v := outs_append [s] _ v
        omega
      · intro l hl
        cases hadd with
        | close x rest a b c d =>
          rcases List.mem_cons.1 (d.mem_iff.1 hl) with rfl | hm
          · have := hlen x (a.mem_iff.2 (by simp)); simp; omega
          · exact hlen l (a.mem_iff.2 (by simp [hm]))
        | join x y rest a b c d =>
          rcases List.mem_cons.1 (d.mem_iff.1 hl) with rfl | hm
          · have := hlen x (a.mem_iff.2 (by simp)); simp; omega
          · exact hlen l (a.mem_iff.2 (by simp [hm]))
        | push x rest a b c d =>
          rcases List.mem_cons.1 (d.mem_iff.1 hl) with rfl | hm
          · have := hlen x (a.mem_iff.2 (by simp)); simp; omega
          · exact hlen l (a.mem_iff.2 (by simp [hm]))
        | enqueue x rest a b c d =>
          rcases List.mem_cons.1 (d.mem_iff.1 hl) with rfl | hm
          · have := hlen x (a.mem_iff.2 (by simp)); simp; omega
          · exact hlen l (a.mem_iff.2 (by simp [hm]))
        | fresh a b c =>
          rcases List.mem_cons.1 (c.mem_iff.1 hl) with rfl | hm
          · simp
          · exact hlen l hm
      · refine added_apart _ _ _ _ hadd hlen ?_ hp
        have := hb s.2
        omega
  have hp := key segs [] (by intro v; simpa [allPairs, outs] using h1 v) (by simp) List.Pairwise.nil
  intro l hl
  have hlen := (C53_collect segs).2 l hl
  obtain ⟨a, ha⟩ : ∃ a, l.head? = some a := by
    cases l with
    | nil => simp at hlen
    | cons a l => exact ⟨a, rfl⟩
  have hbal := C81_balance segs a
  rw [h2 a] at hbal
  have hst : 0 < starting (collectAll segs []) a := List.countP_pos_iff.2 ⟨l, hl, by simp [ha]⟩
  have hen : 0 < ending (collectAll segs []) a := by omega
  obtain ⟨m, hm, hma⟩ := List.countP_pos_iff.1 hen
  have hma : m.getLast? = some a := by simpa using hma
  by_cases hlm : m = l
  · subst hlm
    simp only [isClosed, ha, hma, beq_self_eq_true, Bool.and_true, decide_eq_true_eq]
    omega
  · exfalso
    have : Apart m l := by
      haveI : Std.Symm (Apart (K := K)) := ⟨fun _ _ h => Apart.symm h⟩
      exact hp.forall hm hl hlm
    exact this.1 a hma ha

/-- Two squares, collected out of order, meeting nowhere: both lines are closed. -/
example : (∀ v, outs ([(⟨0, 0⟩, ⟨1, 0⟩), (⟨1, 1⟩, ⟨0, 0⟩), (⟨5, 5⟩, ⟨6, 6⟩), (⟨1, 0⟩, ⟨1, 1⟩), (⟨6, 6⟩, ⟨5, 5⟩)] : List (V2 ℚ × V2 ℚ)) v ≤ 1) ∧
    (∀ v, outs ([(⟨0, 0⟩, ⟨1, 0⟩), (⟨1, 1⟩, ⟨0, 0⟩), (⟨5, 5⟩, ⟨6, 6⟩), (⟨1, 0⟩, ⟨1, 1⟩), (⟨6, 6⟩, ⟨5, 5⟩)] : List (V2 ℚ × V2 ℚ)) v =
      ins ([(⟨0, 0⟩, ⟨1, 0⟩), (⟨1, 1⟩, ⟨0, 0⟩), (⟨5, 5⟩, ⟨6, 6⟩), (⟨1, 0⟩, ⟨1, 1⟩), (⟨6, 6⟩, ⟨5, 5⟩)] : List (V2 ℚ × V2 ℚ)) v) := by
  constructor
  · intro v
    exact List.nodup_iff_count_le_one.1 (by decide +kernel) v
  · intro v
    exact List.Perm.count_eq (by decide +kernel) v

/-- Where a point starts two segments, a line may stay open although the starts and ends balance: the first line found is taken. -/
theorem C81_two_starts : ∃ segs : List (V2 ℚ × V2 ℚ), (∀ v ∈ segs.map Prod.fst ++ segs.map Prod.snd, outs segs v = ins segs v) ∧
    ∃ l ∈ collectAll segs [], isClosed l = false := by
  refine ⟨[(⟨2, 0⟩, ⟨2, 1⟩), (⟨2, 0⟩, ⟨2, 2⟩), (⟨1, 0⟩, ⟨1, 1⟩), (⟨1, 0⟩, ⟨1, 2⟩), (⟨2, 1⟩, ⟨2, 0⟩), (⟨1, 1⟩, ⟨1, 0⟩), (⟨1, 2⟩, ⟨2, 0⟩),
    (⟨2, 2⟩, ⟨1, 0⟩)], ?_⟩
  decide +kernel

end Cm
