import Verif.Props.Space

/-!
# C17, C18, C19, C76: the collision callbacks of a space

The calls are read off `evs`, the latest first. What should hold is said by counting and ordering the calls about one
pair of shapes.
-/

set_option linter.unusedSectionVars false
set_option linter.unusedSimpArgs false
set_option linter.unusedVariables false

namespace Cm
open Sp Spec

variable {K : Type} [Zero K] [LT K] [DecidableRel (α := K) (· < ·)] [Add K] [DecidableEq K]

/-! ### Specification -/

def Spec.isBegin : Ev → Bool
  | .begin _ _ _ => true
  | _ => false

def Spec.isSeparate : Ev → Bool
  | .separate _ _ => true
  | _ => false

/-- The call tells that the collision is to be ignored from now on: `Begin` returned false, or `Ignore` was called. -/
def Spec.isRefusal : Ev → Bool
  | .begin _ _ ok => !ok
  | .pre _ _ ok => !ok
  | _ => false

/-- How often `Begin` was called about the pair. -/
def Spec.begins (x y : Nat) (l : List Ev) : Nat := (l.filter fun e => about e x y && isBegin e).length

/-- How often `Separate` was called about the pair. -/
def Spec.separates (x y : Nat) (l : List Ev) : Nat := (l.filter fun e => about e x y && isSeparate e).length

/-- `Begin` (true) and `Separate` (false) about the pair, the earliest first. -/
def Spec.marks (x y : Nat) (l : List Ev) : List Bool := (l.reverse.filter fun e => about e x y && (isBegin e || isSeparate e)).map isBegin

/-- true, false, true, … starting with the one given. -/
def Spec.Alternate : Bool → List Bool → Prop
  | _, [] => True
  | b, c :: l => c = b ∧ Alternate (!b) l

/-! ### Facts about the reference -/

/-- Only the calls about the pair matter. -/
theorem Spec.phase_filter (x y : Nat) : ∀ l : List Ev, phase x y l = phase x y (l.filter fun e => about e x y)
  | [] => rfl
  | e :: l => by
    by_cases h : about e x y = true
    · rw [List.filter_cons, if_pos h]
      simp only [phase, ← phase_filter x y l]
    · rw [List.filter_cons, if_neg h, phase_other (by simpa using h)]
      exact phase_filter x y l

theorem Spec.begins_cons (x y : Nat) (e : Ev) (l : List Ev) : begins x y (e :: l) = begins x y l + if about e x y && isBegin e then 1 else 0 := by
  simp only [begins, List.filter_cons]; split <;> simp

theorem Spec.separates_cons (x y : Nat) (e : Ev) (l : List Ev) : separates x y (e :: l) = separates x y l + if about e x y && isSeparate e then 1 else 0 := by
  simp only [separates, List.filter_cons]; split <;> simp

/-- How the numbers of calls go with the phase. -/
theorem Spec.phase_counts (x y : Nat) : ∀ (l : List Ev) (p : Phase), phase x y l = some p →
    begins x y l = separates x y l + (if p = .apart then 0 else 1)
  | [], p, h => by
    simp only [phase, Option.some.injEq] at h; subst h; simp [begins, separates]
  | e :: l, p, h => by
    rw [phase] at h
    cases hl : phase x y l with
    | none => rw [hl] at h; cases h
    | some q =>
      have ih := phase_counts x y l q hl
      simp only [hl] at h
      rw [begins_cons, separates_cons, ih]
      by_cases ha : about e x y = true
      · rw [if_pos ha] at h
        simp only [ha, Bool.true_and]
        cases e <;> cases q <;> simp only [Phase.next, Option.some.injEq, reduceCtorEq] at h <;> subst h <;> simp [isBegin, isSeparate]
        all_goals (split <;> simp)
      · rw [if_neg ha, Option.some.injEq] at h
        subst h
        simp [ha]

theorem Spec.alternate_append (c : Bool) : ∀ (l : List Bool) (b : Bool), Alternate b l → (c = if l.length % 2 = 0 then b else !b) → Alternate b (l ++ [c])
  | [], b, _, hc => ⟨by simpa using hc, trivial⟩
  | a :: l, b, h, hc => ⟨h.1, alternate_append c l (!b) h.2 (by
      rw [hc]; simp only [List.length_cons, Bool.not_not]
      rcases Nat.mod_two_eq_zero_or_one l.length with k | k
      · rw [if_neg (by omega), if_pos k]
      · rw [if_pos (by omega), if_neg (by omega)])⟩

/-- Calls in order alternate. -/
theorem Spec.phase_alternate (x y : Nat) : ∀ (l : List Ev) (p : Phase), phase x y l = some p →
    Alternate true (marks x y l) ∧ ((marks x y l).length % 2 = if p = .apart then 0 else 1)
  | [], p, h => by
    simp only [phase, Option.some.injEq] at h; subst h; simp [marks, Alternate]
  | e :: l, p, h => by
    rw [phase] at h
    cases hl : phase x y l with
    | none => rw [hl] at h; cases h
    | some q =>
      obtain ⟨i1, i2⟩ := phase_alternate x y l q hl
      simp only [hl] at h
      have hm : marks x y (e :: l) = if about e x y && (isBegin e || isSeparate e) then marks x y l ++ [isBegin e] else marks x y l := by
        simp only [marks, List.reverse_cons, List.filter_append, List.map_append]
        split
        · rename_i k; rw [List.filter_cons, if_pos k]; rfl
        · rename_i k; rw [List.filter_cons, if_neg k]; simp
      rw [hm]
      by_cases ha : about e x y = true
      · rw [if_pos ha] at h
        simp only [ha, Bool.true_and]
        cases e <;> cases q <;> simp only [Phase.next, Option.some.injEq, reduceCtorEq] at h <;>
          simp only [isBegin, isSeparate, Bool.or_true, Bool.true_or, Bool.or_self, if_true, Bool.false_eq_true, if_false, reduceCtorEq] at i2 ⊢ <;> subst h
        case begin.apart =>
          refine ⟨alternate_append _ _ _ i1 (by rw [if_pos i2]), ?_⟩
          rw [List.length_append, List.length_singleton]
          split <;> split <;> first | (exfalso; simp_all; done) | omega
        case separate.touching => exact ⟨alternate_append _ _ _ i1 (by rw [if_neg (by omega)]; rfl), by rw [List.length_append, List.length_singleton, if_pos rfl]; omega⟩
        case separate.rejected => exact ⟨alternate_append _ _ _ i1 (by rw [if_neg (by omega)]; rfl), by rw [List.length_append, List.length_singleton, if_pos rfl]; omega⟩
        case pre.touching => exact ⟨i1, by split <;> split <;> first | (exfalso; simp_all; done) | omega⟩
        case post.touching => exact ⟨i1, by simpa using i2⟩
      · rw [if_neg ha, Option.some.injEq] at h
        subst h
        simp only [ha, Bool.false_and, Bool.false_eq_true, if_false]
        exact ⟨i1, i2⟩

/-- An earlier part of a sequence in order is in order. -/
theorem Spec.phase_earlier {x y : Nat} : ∀ {l k : List Ev}, phase x y (l ++ k) ≠ none → phase x y k ≠ none
  | [], k, h => h
  | e :: l, k, h => phase_earlier (l := l) (fun hn => h (by simp only [List.cons_append, phase, hn]))

/-- After a refusal the next call about the pair is `Separate`. -/
theorem Spec.refused_quiet {x y : Nat} {e : Ev} {k : List Ev} (he : about e x y = true) (hr : isRefusal e = true) :
    ∀ l : List Ev, phase x y (l ++ e :: k) ≠ none → (∀ d ∈ l, ¬ (about d x y = true ∧ isSeparate d = true)) →
      (∀ d ∈ l, about d x y = false) ∧ phase x y (l ++ e :: k) = some .rejected
  | [], h, _ => by
    refine ⟨by simp, ?_⟩
    simp only [List.nil_append, phase] at h ⊢
    cases hk : phase x y k with
    | none => rw [hk] at h; exact absurd rfl h
    | some p =>
      rw [hk] at h
      simp only [he, if_true] at h ⊢
      cases e with
      | begin a b ok =>
        simp only [isRefusal, Bool.not_eq_true'] at hr; subst hr
        cases p <;> simp_all [Phase.next]
      | pre a b ok =>
        simp only [isRefusal, Bool.not_eq_true'] at hr; subst hr
        cases p <;> simp_all [Phase.next]
      | post a b => cases hr
      | separate a b => cases hr
  | d :: l, h, hs => by
    have h' : phase x y (l ++ e :: k) ≠ none := phase_earlier (l := [d]) h
    obtain ⟨i1, i2⟩ := refused_quiet he hr l h' (fun d hd => hs d (List.mem_cons_of_mem _ hd))
    have hd : about d x y = false := by
      by_contra hn
      rw [Bool.not_eq_false] at hn
      apply h
      rw [List.cons_append, phase_next hn i2]
      have := hs d List.mem_cons_self
      cases d <;> simp_all [Phase.next, isSeparate]
    refine ⟨fun d' h' => ?_, ?_⟩
    · rcases List.mem_cons.1 h' with rfl | h'
      · exact hd
      · exact i1 d' h'
    · rw [List.cons_append, phase_other hd]; exact i2

/-- Every pair of a reachable space has a phase. -/
theorem Sp.Good.phase {s : St K} (G : Good s) (x y : Nat) : ∃ p, Spec.phase x y s.evs = some p := by
  by_cases h : ∀ r, Sp.live s r → (s.ar r).isPair x y = false
  · exact ⟨_, G.ev.rest x y h⟩
  · push Not at h
    obtain ⟨r, h1, h2⟩ := h
    exact ⟨_, G.ev.pair h1 (by simpa using h2)⟩

/-! ### C17: `Begin` and `Separate` alternate -/

/-- For each pair of shapes `Begin` and `Separate` alternate, starting with `Begin`, after every history of calls. -/
theorem C17_alternate {kind : Nat → Kind} {ops : List (Op K)} {s : St K} (h : ReachedBy kind ops s) (x y : Nat) :
    Alternate true (marks x y s.evs) := by
  obtain ⟨G, _⟩ := h.all
  obtain ⟨p, hp⟩ := G.phase x y
  exact (phase_alternate x y _ p hp).1

/-- After a step a pair found touching has begun and not ended. -/
theorem C17_touching {kind : Nat → Kind} {ops : List (Op K)} {s : St K} (h : ReachedBy kind ops s) (inp : StepIn K) (ho : StepOk s inp) :
    ∃ s', step s inp = some s' ∧ ∀ k ∈ inp.hits, begins k.x k.y s'.evs = separates k.x k.y s'.evs + 1 := by
  obtain ⟨G, A, J⟩ := h.all
  obtain ⟨s', m, e, G', D⟩ := step_ok G inp ho
  refine ⟨s', e, fun k hk => ?_⟩
  obtain ⟨p, hp⟩ := G'.phase k.x k.y
  have := phase_counts k.x k.y _ p hp
  rw [if_neg (fun hn => D.hit k hk (by rw [hp, hn]))] at this
  exact this

/-- A body that can move in the step: in the space's dynamic index are exactly the shapes of such bodies. -/
def Spec.mobile (s : St K) (b : Nat) : Prop := (s.bd b).kind ≠ .static ∧ ¬ asleep s b

theorem mobile_iff (s : St K) (b : Nat) : mobile s b ↔ ¬ frozen s [] b := by
  unfold mobile frozen asleep; rw [off_nil]; tauto

/-- Full statement: after a step in which a pair is apart, `Separate` has been called as often as `Begin`. It holds if one
of the bodies could move before the step and one can after it; no callback late in the step wakes a body. -/
theorem C17_apart_partial {kind : Nat → Kind} {ops : List (Op K)} {s : St K} (h : ReachedBy kind ops s) (inp : StepIn K) (ho : StepOk s inp)
    (hl : inp.lateWake = []) :
    ∃ s', step s inp = some s' ∧ ∀ x y, (mobile s (s.sh x).body ∨ mobile s (s.sh y).body) → (mobile s' (s.sh x).body ∨ mobile s' (s.sh y).body) →
      (∀ k ∈ inp.hits, ¬ ((k.x = x ∧ k.y = y) ∨ (k.x = y ∧ k.y = x))) → separates x y s'.evs = begins x y s'.evs := by
  obtain ⟨G, A, J⟩ := h.all
  obtain ⟨s', m, e, G', D⟩ := step_ok G inp ho
  refine ⟨s', e, fun x y h1 h2 h3 => ?_⟩
  simp only [mobile_iff] at h1 h2
  have hm : ¬ (frozen m [] (s.sh x).body ∧ frozen m [] (s.sh y).body) := by
    have hb := D.late hl
    simp only [frozen, off_nil, hb] at h2 ⊢
    tauto
  have := phase_counts x y _ _ (D.noHit x y (by tauto) hm h3)
  simpa using this.symm

/-- After `RemoveShape`, for every pair with the shape `Separate` has been called as often as `Begin`. -/
theorem C17_removed {kind : Nat → Kind} {ops : List (Op K)} {s : St K} (h : ReachedBy kind ops s) (x : Nat) (hx : (s.sh x).space = true) :
    ∃ s', removeShape s x = some s' ∧ ∀ y, separates x y s'.evs = begins x y s'.evs := by
  obtain ⟨G, A, J⟩ := h.all
  obtain ⟨s', e, G', D⟩ := removeShape_good G hx
  refine ⟨s', e, fun y => ?_⟩
  have hp : Spec.phase x y s'.evs = some .apart := by
    apply G'.ev.rest
    intro r hr
    have := ((D.live r).1 hr).2
    rw [Bool.eq_false_iff]
    intro hn
    rcases isPair_iff.1 hn with ⟨k1, k2⟩ | ⟨k1, k2⟩
    · exact this (Or.inl ((D.pairs r).1 ▸ k1))
    · exact this (Or.inr ((D.pairs r).2 ▸ k2))
  have := phase_counts x y _ _ hp
  simpa using this.symm

/-- Two bodies touch for three steps and are apart in the fourth, in which they fall asleep. -/
def demoPart : List (Op ℚ) :=
  demoAdd 1 ++ demoAdd 2 ++ [demoStep (1/4) [(1, 2)], demoStep (1/4) [(1, 2)], demoStep (1/4) [(1, 2)], demoStep (1/4) []]

theorem demoPart_allowed : Allowed demoNew demoPart := okAll_allowed _ _ _ demo_good demo_agree (by decide +kernel)

/-- The bodies are apart for a whole step and no `Separate` is called, since they fall asleep in it. -/
theorem C17_late_separate : ∃ s, ReachedBy demoKind demoPart s ∧ begins 1 2 s.evs = 1 ∧ separates 1 2 s.evs = 0 ∧ asleep s 1 ∧ asleep s 2 := by
  refine ⟨(runAll demoNew demoPart).get (by decide +kernel), ⟨_, _, _, _, _, ?_, ?_, demoPart_allowed, (Option.some_get _).symm⟩, by decide +kernel, by decide +kernel, ?_, ?_⟩
  · decide
  · intro th h; simp at h; rw [← h]; decide
  · show _ ≠ _; decide +kernel
  · show _ ≠ _; decide +kernel

/-- The calls about the pair 1, 0 in the example. -/
example : marks 1 0 demoEnd.evs = [true] ∧ begins 2 1 demoEnd.evs = 1 := by decide +kernel

/-! ### C18: rejected collisions stay rejected -/

/-- After `Begin` returned false or `Ignore` was called, no callback about the pair is called before `Separate`. -/
theorem C18_refused {kind : Nat → Kind} {ops : List (Op K)} {s : St K} (h : ReachedBy kind ops s) (x y : Nat) (e : Ev) (later earlier : List Ev)
    (hs : s.evs = later ++ e :: earlier) (he : about e x y = true) (hr : isRefusal e = true)
    (hno : ∀ d ∈ later, ¬ (about d x y = true ∧ isSeparate d = true)) : ∀ d ∈ later, about d x y = false := by
  obtain ⟨G, _⟩ := h.all
  obtain ⟨p, hp⟩ := G.phase x y
  rw [hs] at hp
  exact (refused_quiet he hr later (by rw [hp]; simp) hno).1

/-- The collisions solved in a step: `PostSolve` is called only for pairs accepted in this step, or for pairs of which a
body was asleep before the step; and it is called for every accepted pair with a body awake after the step. Pairs
not found touching get no `Begin` or `PreSolve`. -/
theorem C18_solved {kind : Nat → Kind} {ops : List (Op K)} {s : St K} (h : ReachedBy kind ops s) (inp : StepIn K) (ho : StepOk s inp)
    (hl : inp.lateWake = []) :
    ∃ s' ps ss cs, step s inp = some s' ∧ s'.evs = ps ++ ss ++ cs ++ s.evs ∧
      (∀ k ∈ inp.hits, ∀ p, Spec.phase k.x k.y s.evs = some p → cs.filter (fun e => about e k.x k.y) = calls p k) ∧
      (∀ e ∈ cs, ∃ k ∈ inp.hits, evPair e = (k.x, k.y)) ∧
      (∀ e ∈ ss, ∃ x y, e = .separate x y ∧ ∀ k ∈ inp.hits, ¬ ((k.x = x ∧ k.y = y) ∨ (k.x = y ∧ k.y = x))) ∧
      ps.Nodup ∧
      (∀ e ∈ ps, ∃ x y, e = .post x y ∧ ((∃ k ∈ inp.hits, k.x = x ∧ k.y = y ∧ solved s k) ∨ asleep s (s.sh x).body ∨ asleep s (s.sh y).body)) ∧
      (∀ k ∈ inp.hits, solved s k → (mobile s' (s.sh k.x).body ∨ mobile s' (s.sh k.y).body) → .post k.x k.y ∈ ps) := by
  obtain ⟨G, A, J⟩ := h.all
  obtain ⟨s', m, e, G', D⟩ := step_ok G inp ho
  obtain ⟨ps, ss, cs, E⟩ := D.evs
  refine ⟨s', ps, ss, cs, e, E.eq, E.hit, E.only, E.seps, E.once, ?_, ?_⟩
  · intro d hd
    obtain ⟨r, h1, h2, h3⟩ := (E.posts d).1 hd
    refine ⟨_, _, h3, ?_⟩
    rcases (D.linked r).1 h1 with ⟨k1, k2⟩ | ⟨k, hk, k1, k2, k3, k4⟩
    · right
      obtain ⟨e1, e2⟩ := D.ends r k1 k2
      obtain ⟨b1, b2, _⟩ := D.mid.arbs.shp r (Or.inr h1)
      rw [D.midSh, e1] at b1; rw [D.midSh, e2] at b2
      rw [← b1, ← b2]
      unfold owner at k2
      rw [off_nil] at k2
      split at k2
      · exact Or.inr k2
      · exact Or.inl k2
    · exact Or.inl ⟨k, hk, k3.symm, k4.symm, k1⟩
  · intro k hk hs hm
    obtain ⟨r, hr, k3, k4⟩ := D.found k hk
    have ht := (D.linked r).2 (Or.inr ⟨k, hk, hs, hr, k3, k4⟩)
    refine (E.posts _).2 ⟨r, ht, ?_, by rw [k3, k4]⟩
    intro ho'
    obtain ⟨g1, g2⟩ := D.mid.arbs.group r ht
    obtain ⟨f1, f2⟩ := frozen_both g1 g2 ho'
    obtain ⟨b1, b2, _⟩ := D.mid.arbs.shp r hr
    rw [D.midSh, k3] at b1; rw [D.midSh, k4] at b2
    rw [b1] at f1; rw [b2] at f2
    have hb := D.late hl
    simp only [mobile_iff, frozen, off_nil, hb] at hm
    simp only [frozen, off_nil] at f1 f2
    tauto

/-- A pair is accepted in a step exactly if it was not rejected when it began to touch, `Ignore` is not called, `PreSolve`
returns true, neither shape is a sensor and one of the bodies is dynamic. -/
theorem C18_accepted (s : St K) (k : Hit) (p : Phase) (hp : Spec.phase k.x k.y s.evs = some p) :
    solved s k ↔ ((p = .touching ∨ (p = .apart ∧ k.begin = true)) ∧ k.ignore = false ∧ k.pre = true ∧ (s.sh k.x).sensor = false ∧ (s.sh k.y).sensor = false ∧
      ((s.bd (s.sh k.x).body).kind = .dynamic ∨ (s.bd (s.sh k.y).body).kind = .dynamic)) := by
  have : solved s k ↔ accepts p k ((s.sh k.x).sensor || (s.sh k.y).sensor)
    (decide ((s.bd (s.sh k.x).body).kind ≠ .dynamic) && decide ((s.bd (s.sh k.y).body).kind ≠ .dynamic)) = true := by
    unfold solved; rw [hp]
    exact ⟨fun ⟨p', h1, h2⟩ => by rw [Option.some.injEq] at h1; rw [← h1] at h2; exact h2, fun h => ⟨p, rfl, h⟩⟩
  rw [this]
  cases p <;> simp [accepts] <;> tauto

/-- Where a pair found touching should be after the step. -/
def Spec.phaseAfter (p : Phase) (k : Hit) : Phase := match p with
  | .rejected => .rejected
  | .touching => if k.ignore then .rejected else .touching
  | .apart => if k.begin then (if k.ignore then .rejected else .touching) else .rejected

/-- Where the pair is after the step. A result false of `PreSolve` is not remembered. -/
theorem C18_remembered {kind : Nat → Kind} {ops : List (Op K)} {s : St K} (h : ReachedBy kind ops s) (inp : StepIn K) (ho : StepOk s inp) :
    ∃ s', step s inp = some s' ∧ ∀ k ∈ inp.hits, ∀ p, Spec.phase k.x k.y s.evs = some p → Spec.phase k.x k.y s'.evs = some (phaseAfter p k) := by
  obtain ⟨G, A, J⟩ := h.all
  obtain ⟨s', m, e, G', D⟩ := step_ok G inp ho
  obtain ⟨ps, ss, cs, E⟩ := D.evs
  refine ⟨s', e, fun k hk p hp => ?_⟩
  have hcs : Spec.phase k.x k.y (cs ++ s.evs) = some (phaseAfter p k) := by
    rw [phase_filter, List.filter_append, E.hit k hk p hp]
    rw [phase_filter] at hp
    have ha : ∀ d : Ev, evPair d = (k.x, k.y) → about d k.x k.y = true := fun d hd => by simp [about, hd]
    cases p
    · cases hb : k.begin <;> simp only [calls, phaseAfter, hb, if_true, Bool.false_eq_true, if_false, List.cons_append, List.nil_append]
      · rw [phase_next (ha _ rfl) hp]; rfl
      · have h1 : Spec.phase k.x k.y (Ev.begin k.x k.y true :: s.evs.filter fun e => about e k.x k.y) = some .touching := by
          rw [phase_next (ha _ rfl) hp]; rfl
        rw [phase_next (ha _ rfl) h1]
        cases k.ignore <;> rfl
    · simp only [calls, phaseAfter, List.cons_append, List.nil_append]
      rw [phase_next (ha _ rfl) hp]
      cases k.ignore <;> rfl
    · simpa only [calls, phaseAfter, List.nil_append] using hp
  have hss : Spec.phase k.x k.y (ss ++ (cs ++ s.evs)) = Spec.phase k.x k.y (cs ++ s.evs) := by
    rw [phase_filter, phase_filter (l := cs ++ s.evs), List.filter_append]
    have : ss.filter (fun e => about e k.x k.y) = [] := by
      rw [List.filter_eq_nil_iff]
      intro d hd
      obtain ⟨x, y, rfl, hno⟩ := E.seps d hd
      have := hno k hk
      simp only [about, evPair, Prod.mk.injEq, Bool.or_eq_true, decide_eq_true_eq]
      rintro (⟨rfl, rfl⟩ | ⟨rfl, rfl⟩)
      · exact this (Or.inl ⟨rfl, rfl⟩)
      · exact this (Or.inr ⟨rfl, rfl⟩)
    rw [this, List.nil_append]
  have hps : ∀ l : List Ev, (∀ d ∈ l, ∃ x y, d = .post x y) → ∀ q, Spec.phase k.x k.y (ss ++ (cs ++ s.evs)) = some q →
      Spec.phase k.x k.y (l ++ (ss ++ (cs ++ s.evs))) ≠ none → Spec.phase k.x k.y (l ++ (ss ++ (cs ++ s.evs))) = some q := by
    intro l
    induction l with
    | nil => intro _ q hq _; exact hq
    | cons d l ih =>
      intro hl q hq hn
      have i := ih (fun d hd => hl d (List.mem_cons_of_mem _ hd)) q hq (phase_earlier (l := [d]) hn)
      obtain ⟨x, y, rfl⟩ := hl d List.mem_cons_self
      rw [List.cons_append] at hn ⊢
      by_cases hab : about (.post x y) k.x k.y = true
      · rw [phase_next hab i] at hn ⊢
        cases q with
        | touching => rfl
        | apart => exact absurd rfl hn
        | rejected => exact absurd rfl hn
      · rw [phase_other (by simpa using hab)]; exact i
  have heq : s'.evs = ps ++ (ss ++ (cs ++ s.evs)) := by rw [E.eq]; simp
  rw [heq]
  apply hps ps
  · intro d hd
    obtain ⟨r, _, _, h3⟩ := (E.posts d).1 hd
    exact ⟨_, _, h3⟩
  · rw [hss]; exact hcs
  · rw [← heq]
    obtain ⟨q, hq⟩ := G'.phase k.x k.y
    rw [hq]; simp

/-- A pair refused by `Begin`, one ignored in `PreSolve`, one dropped by `PreSolve` for one step, one accepted. -/
def demoReject : List (Op ℚ) :=
  demoAdd 0 ++ demoAdd 1 ++ demoAdd 2 ++ demoAdd 3 ++ demoAdd 4 ++
    [.step { dt := 1/4, moving := fun _ => true, lateWake := [],
             hits := [⟨1, 0, 1, false, true, false, []⟩, ⟨2, 0, 1, true, true, true, []⟩, ⟨3, 0, 1, true, false, false, []⟩, ⟨4, 0, 1, true, true, false, []⟩] },
     demoStep (1/4) [(1, 0), (2, 0), (3, 0), (4, 0)], demoStep (1/4) []]

theorem demoReject_allowed : Allowed demoNew demoReject := okAll_allowed _ _ _ demo_good demo_agree (by decide +kernel)

example : Allowed demoNew demoReject ∧ (runAll demoNew demoReject).map (fun s => s.evs.reverse.filter fun e => about e 1 0 || about e 2 0) =
    some [.begin 1 0 false, .begin 2 0 true, .pre 2 0 false, .separate 2 0, .separate 1 0] ∧
    (runAll demoNew demoReject).map (fun s => s.evs.reverse.filter fun e => about e 3 0 || about e 4 0) =
    some [.begin 3 0 true, .pre 3 0 true, .begin 4 0 true, .pre 4 0 true, .post 4 0, .pre 3 0 true, .pre 4 0 true, .post 3 0, .post 4 0, .separate 4 0, .separate 3 0] :=
  ⟨demoReject_allowed, by decide +kernel, by decide +kernel⟩

/-! ### C19: `RemoveShape` ends the collisions of the shape -/

/-- After `RemoveShape` no list mentions a collision of the shape; exactly the collisions of it that had begun and not
ended got their `Separate`, once, and nothing else was called. -/
theorem C19_removeShape {kind : Nat → Kind} {ops : List (Op K)} {s : St K} (h : ReachedBy kind ops s) (x : Nat) (hx : (s.sh x).space = true) :
    ∃ s' l, removeShape s x = some s' ∧ s'.evs = l ++ s.evs ∧
      (∀ r, (r ∈ s'.cached ∨ r ∈ s'.arbiters ∨ ∃ b, r ∈ (s'.bd b).arbs) → (s'.ar r).sa ≠ x ∧ (s'.ar r).sb ≠ x) ∧
      (∀ e ∈ l, ∃ y, e = .separate x y ∨ e = .separate y x) ∧
      (∀ y, separates x y l = begins x y s.evs - separates x y s.evs) := by
  obtain ⟨G, A, J⟩ := h.all
  obtain ⟨s', e, G', D⟩ := removeShape_good G hx
  obtain ⟨l, hl, hm⟩ := D.evs
  have hon : ∀ e ∈ l, ∃ y, e = .separate x y ∨ e = .separate y x := by
    intro d hd
    obtain ⟨r, h1, h2, h3, h4⟩ := (hm d).1 hd
    rcases h2 with h2 | h2
    · exact ⟨(s.ar r).sb, Or.inl (by rw [h4, h2])⟩
    · exact ⟨(s.ar r).sa, Or.inr (by rw [h4, h2])⟩
  refine ⟨s', l, e, hl, ?_, hon, ?_⟩
  · intro r hr
    have hlive : Sp.live s' r := by
      rcases hr with hr | hr | ⟨b, hr⟩
      · exact Or.inl hr
      · rcases (G'.inv.arbs.arb r).1 hr with k | k
        · simp at k
        · exact Or.inr k.1
      · exact Or.inr ((G'.inv.arbs.list b r).1 hr).1
    have := ((D.live r).1 hlive).2
    rw [(D.pairs r).1, (D.pairs r).2]
    exact ⟨fun k => this (Or.inl k), fun k => this (Or.inr k)⟩
  · intro y
    have happ : begins x y s'.evs = begins x y l + begins x y s.evs ∧ separates x y s'.evs = separates x y l + separates x y s.evs := by
      rw [hl]; simp [begins, separates, List.filter_append]
    have hb : begins x y l = 0 := by
      rw [begins, List.length_eq_zero_iff, List.filter_eq_nil_iff]
      intro d hd
      obtain ⟨z, rfl | rfl⟩ := hon d hd <;> simp [isBegin]
    obtain ⟨_, e', hz⟩ := C17_removed h x hx
    rw [e, Option.some.injEq] at e'
    subst e'
    have := hz y
    omega

example : ∃ s', removeShape demoEnd 1 = some s' ∧ s'.evs = [.separate 1 0, .separate 2 1] ++ demoEnd.evs := by
  refine ⟨(removeShape demoEnd 1).get (by decide +kernel), by simp, ?_⟩
  decide +kernel

/-! ### C76: collisions given back for reuse -/

/-- A collision object given back for reuse is in no list of the space or of a body. -/
theorem C76_pooled {kind : Nat → Kind} {ops : List (Op K)} {s : St K} (h : ReachedBy kind ops s) (r : Nat) (hr : r ∈ s.pool) :
    r ∉ s.cached ∧ r ∉ s.arbiters ∧ ∀ b, r ∉ (s.bd b).arbs := by
  obtain ⟨G, _⟩ := h.all
  have key : ¬ Sp.live s r := fun hn => (G.inv.arbs.ids r hn).2 hr
  refine ⟨fun k => key (Or.inl k), fun k => ?_, fun b k => key (Or.inr ((G.inv.arbs.list b r).1 k).1)⟩
  rcases (G.inv.arbs.arb r).1 k with k | k
  · simp at k
  · exact key (Or.inr k.1)

end Cm
