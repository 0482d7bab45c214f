import Verif.Model.Lock
import Mathlib.Data.List.Nodup
import Mathlib.Tactic.Linarith

/-!
# C20, C21: post-step callbacks and the lock

Everything is read off the record of what was asked for and what was done.
-/

set_option linter.unusedSectionVars false
set_option linter.unusedSimpArgs false
set_option linter.unusedVariables false

namespace Cm
open Lk

/-! ### Specification -/

namespace Spec

/-- The post-step callbacks that were called, in order. -/
def ran (l : List LEv) : List Nat := l.reverse.filterMap fun e => match e with
  | .start f _ => some f
  | _ => none

/-- The callbacks for which `AddPostStepCallback` returned true, called while no post-step callback was running, in
order. -/
def accepted (l : List LEv) : List Nat := l.reverse.filterMap fun e => match e with
  | .added f _ true false => some f
  | _ => none

/-- The callbacks for which `AddPostStepCallback` returned true, called by a post-step callback. -/
def acceptedDuring (l : List LEv) : List Nat := l.reverse.filterMap fun e => match e with
  | .added f _ true true => some f
  | _ => none

/-- Which post-step callback is running; `none` if one was started inside another. -/
def running : List LEv → Option (Option Nat)
  | [] => some none
  | .start f _ :: l => if running l = some none then some (some f) else none
  | .finish f :: l => if running l = some (some f) then some none else none
  | _ :: l => running l

/-- Every request to wake a body is followed by waking it, or it is still waiting. -/
def Served (waiting : List Nat) (l : List LEv) : Prop := ∀ later b earlier, l = later ++ .asked b :: earlier → (.woke b 0 ∈ later) ∨ b ∈ waiting

/-- Bodies are woken and post-step callbacks called only at lock depth zero. -/
def Unlocked (l : List LEv) : Prop := ∀ e ∈ l, match e with
  | .woke _ d => d = 0
  | .start _ d => d = 0
  | _ => True

/-- A body is woken only if that was asked for before. -/
def Asked (l : List LEv) : Prop := ∀ later b d earlier, l = later ++ .woke b d :: earlier → .asked b ∈ earlier

end Spec
open Spec

variable {prog : Nat → List Act}

/-! ### The lock depth -/

theorem runPosts_kept {ex : LSt → List Act → Option LSt} (hex : ∀ s l s', ex s l = some s' → s'.locked = s.locked ∧ s'.skip = s.skip) :
    ∀ (l : List Nat) (s s' : LSt), runPosts prog ex l s = some s' → s'.locked = s.locked ∧ s'.skip = s.skip
  | [], s, s', h => by simp only [runPosts, Option.some.injEq] at h; subst h; exact ⟨rfl, rfl⟩
  | i :: l, s, s', h => by
    rw [runPosts] at h
    split at h
    · cases h
    · have := runPosts_kept hex l _ s' h
      exact this
    · split at h
      · cases h
      · rename_i s1 e1
        obtain ⟨h1, h2⟩ := runPosts_kept hex l _ s' h
        obtain ⟨k1, k2⟩ := hex _ _ _ e1
        exact ⟨h1.trans k1, h2.trans k2⟩

/-- Every operation leaves the lock depth as it found it, whatever the callbacks do. -/
theorem C21_depth : ∀ (n : Nat) (s : LSt) (l : List Act) (s' : LSt), exec prog n s l = some s' → s'.locked = s.locked ∧ s'.skip = s.skip
  | 0, s, l, s', h => by simp [exec] at h
  | n + 1, s, [], s', h => by simp only [exec, Option.some.injEq] at h; subst h; exact ⟨rfl, rfl⟩
  | n + 1, s, .wake b :: l, s', h => by
    rw [exec] at h
    obtain ⟨h1, h2⟩ := C21_depth n _ l s' h
    rw [h1, h2]; unfold ask; split <;> exact ⟨rfl, rfl⟩
  | n + 1, s, .post f k :: l, s', h => by
    rw [exec] at h
    obtain ⟨h1, h2⟩ := C21_depth n _ l s' h
    rw [h1, h2]; unfold addPost; split <;> exact ⟨rfl, rfl⟩
  | n + 1, s, .block run body :: l, s', h => by
    rw [exec] at h
    split at h
    · cases h
    · rename_i s1 e1
      split at h
      · cases h
      · rename_i s2 e2
        obtain ⟨h1, h2⟩ := C21_depth n _ l s' h
        obtain ⟨k1, k2⟩ := C21_depth n _ body s1 e1
        have k1 : s1.locked = s.locked + 1 := k1
        have k2 : s1.skip = s.skip := k2
        rw [h1, h2]
        unfold unlock at e2
        simp only at e2
        split at e2
        · simp only [Option.some.injEq] at e2; subst e2; exact ⟨by show s1.locked - 1 = _; omega, k2⟩
        · split at e2
          · rename_i hr
            split at e2
            · cases e2
            · rename_i s3 e3
              simp only [Option.some.injEq] at e2; subst e2
              obtain ⟨m1, _⟩ := runPosts_kept (fun s l s' h => C21_depth n s l s' h) _ _ _ e3
              refine ⟨by show s3.locked = _; rw [m1]; show s1.locked - 1 = _; omega, ?_⟩
              show false = s.skip
              simp only [release, Bool.and_eq_true, Bool.not_eq_true'] at hr
              rw [← k2, hr.2]
          · simp only [Option.some.injEq] at e2; subst e2; exact ⟨by show s1.locked - 1 = _; omega, k2⟩

/-! ### It always ends -/

theorem runPosts_mono {ex ex' : LSt → List Act → Option LSt} (hex : ∀ s l s', ex s l = some s' → ex' s l = some s') :
    ∀ (l : List Nat) (s s' : LSt), runPosts prog ex l s = some s' → runPosts prog ex' l s = some s'
  | [], s, s', h => h
  | i :: l, s, s', h => by
    rw [runPosts] at h ⊢
    rcases hk : s.posts[i]? with _ | ⟨k, _ | f⟩
    · simp only [hk] at h; cases h
    · simp only [hk] at h ⊢; exact runPosts_mono hex l _ s' h
    · simp only [hk] at h ⊢
      split at h
      · cases h
      · rename_i s1 e1
        rw [hex _ _ _ e1]
        exact runPosts_mono hex l _ s' h

theorem unlock_mono {ex ex' : LSt → List Act → Option LSt} (hex : ∀ s l s', ex s l = some s' → ex' s l = some s') (s : LSt) (run : Bool) (s' : LSt)
    (h : unlock prog ex s run = some s') : unlock prog ex' s run = some s' := by
  unfold unlock at h ⊢
  simp only at h ⊢
  split at h
  · rename_i hk; rw [if_pos hk]; exact h
  · rename_i hk
    rw [if_neg hk]
    split at h
    · rename_i hr
      rw [if_pos hr]
      split at h
      · cases h
      · rename_i s3 e3
        rw [runPosts_mono hex _ _ _ e3]; exact h
    · rename_i hr
      rw [if_neg hr]; exact h

theorem exec_succ : ∀ (n : Nat) (s : LSt) (l : List Act) (s' : LSt), exec prog n s l = some s' → exec prog (n + 1) s l = some s'
  | 0, s, l, s', h => by simp [exec] at h
  | n + 1, s, [], s', h => by simpa [exec] using h
  | n + 1, s, .wake b :: l, s', h => by
    rw [exec] at h ⊢; exact exec_succ n _ l s' h
  | n + 1, s, .post f k :: l, s', h => by
    rw [exec] at h ⊢; exact exec_succ n _ l s' h
  | n + 1, s, .block run body :: l, s', h => by
    rw [exec] at h ⊢
    split at h
    · cases h
    · rename_i s1 e1
      split at h
      · cases h
      · rename_i s2 e2
        rw [exec_succ n _ body s1 e1]
        simp only
        rw [unlock_mono (fun s l s' h => exec_succ n s l s' h) s1 run s2 e2]
        exact exec_succ n s2 l s' h

theorem exec_mono {n m : Nat} (h : n ≤ m) {s : LSt} {l : List Act} {s' : LSt} (e : exec prog n s l = some s') : exec prog m s l = some s' := by
  induction h with
  | refl => exact e
  | step _ ih => exact exec_succ _ s l s' ih

/-- With post-step callbacks switched off, which is so while they are run, everything ends. -/
theorem exec_ends_skip : ∀ (k : Nat) (l : List Act), sizeOf l ≤ k → ∀ s : LSt, s.skip = true → ∃ n s', exec prog n s l = some s' := by
  intro k
  induction k with
  | zero => intro l hl; cases l <;> simp at hl
  | succ k ih =>
    intro l hl s hs
    match l with
    | [] => exact ⟨1, s, rfl⟩
    | .wake b :: l =>
      obtain ⟨n, s', e⟩ := ih l (by simp at hl; omega) (ask s b) (by unfold ask; split <;> exact hs)
      exact ⟨n + 1, s', e⟩
    | .post f key :: l =>
      obtain ⟨n, s', e⟩ := ih l (by simp at hl; omega) (addPost s f key) (by unfold addPost; split <;> exact hs)
      exact ⟨n + 1, s', e⟩
    | .block run body :: l =>
      obtain ⟨n1, s1, e1⟩ := ih body (by simp at hl; omega) { s with locked := s.locked + 1 } hs
      have hs1 : s1.skip = true := by rw [(C21_depth _ _ _ _ e1).2]; exact hs
      have hu : ∀ ex, ∃ s2, unlock prog ex s1 run = some s2 ∧ s2.skip = true ∧ ∀ ex', unlock prog ex' s1 run = some s2 := by
        intro ex
        unfold unlock
        simp only
        split
        · exact ⟨_, rfl, hs1, fun _ => rfl⟩
        · simp only [release, hs1, Bool.not_true, Bool.and_false, Bool.false_eq_true, if_false]
          exact ⟨_, rfl, rfl, fun _ => rfl⟩
      obtain ⟨s2, _, hs2, hu2⟩ := hu (exec prog 0)
      obtain ⟨n2, s', e2⟩ := ih l (by simp at hl; omega) s2 hs2
      refine ⟨max n1 n2 + 1, s', ?_⟩
      rw [exec, exec_mono (le_max_left n1 n2) e1]
      simp only
      rw [hu2]
      exact exec_mono (le_max_right n1 n2) e2

/-- What a list of actions does to the callbacks while they are run: it only adds to them. -/
theorem exec_skip_posts : ∀ (n : Nat) (s : LSt) (l : List Act) (s' : LSt), exec prog n s l = some s' → s.skip = true →
    ∃ extra, s'.posts = s.posts ++ extra
  | 0, s, l, s', h, _ => by simp [exec] at h
  | n + 1, s, [], s', h, _ => by simp only [exec, Option.some.injEq] at h; subst h; exact ⟨[], by simp⟩
  | n + 1, s, .wake b :: l, s', h, hs => by
    rw [exec] at h
    obtain ⟨x, hx⟩ := exec_skip_posts n _ l s' h (by unfold ask; split <;> exact hs)
    refine ⟨x, ?_⟩
    rw [hx]; unfold ask; split <;> rfl
  | n + 1, s, .post f k :: l, s', h, hs => by
    rw [exec] at h
    obtain ⟨x, hx⟩ := exec_skip_posts n _ l s' h (by unfold addPost; split <;> exact hs)
    rw [hx]
    unfold addPost
    split
    · exact ⟨(k, some f) :: x, by simp⟩
    · exact ⟨x, rfl⟩
  | n + 1, s, .block run body :: l, s', h, hs => by
    rw [exec] at h
    split at h
    · cases h
    · rename_i s1 e1
      split at h
      · cases h
      · rename_i s2 e2
        obtain ⟨x1, hx1⟩ := exec_skip_posts n _ body s1 e1 hs
        have hx1 : s1.posts = s.posts ++ x1 := hx1
        have hs1 : s1.skip = true := by rw [(C21_depth _ _ _ _ e1).2]; exact hs
        have h2 : s2.skip = true ∧ s2.posts = s1.posts := by
          unfold unlock at e2
          simp only at e2
          split at e2
          · simp only [Option.some.injEq] at e2; subst e2; exact ⟨hs1, rfl⟩
          · simp only [release, hs1, Bool.not_true, Bool.and_false, Bool.false_eq_true, if_false, Option.some.injEq] at e2
            subst e2; exact ⟨rfl, rfl⟩
        obtain ⟨x2, hx2⟩ := exec_skip_posts n s2 l s' h h2.1
        exact ⟨x1 ++ x2, by rw [hx2, h2.2, hx1]; simp⟩

/-- Running the post-step callbacks ends. -/
theorem runPosts_ends : ∀ (l : List Nat) (s : LSt), s.skip = true → (∀ i ∈ l, i < s.posts.length) → ∃ n s', runPosts prog (exec prog n) l s = some s'
  | [], s, _, _ => ⟨0, s, rfl⟩
  | i :: l, s, hs, hi => by
    have hlt := hi i (by simp)
    simp only [runPosts, List.getElem?_eq_getElem hlt]
    obtain ⟨k, f⟩ := s.posts[i]
    cases f with
    | none =>
      obtain ⟨n, s', e⟩ := runPosts_ends l { s with posts := s.posts.set i (k, none) } hs (by intro j hj; simp; exact hi j (by simp [hj]))
      exact ⟨n, s', e⟩
    | some f =>
      obtain ⟨n1, s1, e1⟩ := exec_ends_skip (prog := prog) _ (prog f) le_rfl
        { s with posts := s.posts.set i (k, none), log := .start f s.locked :: s.log } hs
      have hs1 : s1.skip = true := by rw [(C21_depth _ _ _ _ e1).2]; exact hs
      obtain ⟨x, hx⟩ := exec_skip_posts _ _ _ _ e1 hs
      obtain ⟨n2, s', e2⟩ := runPosts_ends l { s1 with log := .finish f :: s1.log } hs1 (by
        intro j hj
        show j < s1.posts.length
        rw [hx]; simp
        have := hi j (by simp [hj])
        omega)
      refine ⟨max n1 n2, s', ?_⟩
      simp only
      rw [exec_mono (le_max_left n1 n2) e1]
      exact runPosts_mono (fun s l s' h => exec_mono (le_max_right n1 n2) h) _ _ _ e2

/-- Whatever the callbacks do, every operation ends. -/
theorem C21_ends (s : LSt) (l : List Act) : ∃ n s', exec prog n s l = some s' := by
  suffices ∀ (k : Nat) (l : List Act), sizeOf l ≤ k → ∀ s : LSt, ∃ n s', exec prog n s l = some s' from this _ l le_rfl s
  intro k
  induction k with
  | zero => intro l hl; cases l <;> simp at hl
  | succ k ih =>
    intro l hl s
    match l with
    | [] => exact ⟨1, s, rfl⟩
    | .wake b :: l =>
      obtain ⟨n, s', e⟩ := ih l (by simp at hl; omega) (ask s b)
      exact ⟨n + 1, s', e⟩
    | .post f key :: l =>
      obtain ⟨n, s', e⟩ := ih l (by simp at hl; omega) (addPost s f key)
      exact ⟨n + 1, s', e⟩
    | .block run body :: l =>
      obtain ⟨n1, s1, e1⟩ := ih body (by simp at hl; omega) { s with locked := s.locked + 1 }
      have hu : ∃ n2 s2, unlock prog (exec prog n2) s1 run = some s2 := by
        unfold unlock
        simp only
        split
        · exact ⟨0, _, rfl⟩
        · split
          · obtain ⟨n2, s2, e2⟩ := runPosts_ends (prog := prog) (List.range (release { s1 with locked := s1.locked - 1 }).posts.length)
              { release { s1 with locked := s1.locked - 1 } with skip := true } rfl (by intro i hi; simpa using hi)
            exact ⟨n2, _, by rw [e2]⟩
          · exact ⟨0, _, rfl⟩
      obtain ⟨n2, s2, e2⟩ := hu
      obtain ⟨n3, s', e3⟩ := ih l (by simp at hl; omega) s2
      refine ⟨max n1 (max n2 n3) + 1, s', ?_⟩
      rw [exec, exec_mono (le_max_left _ _) e1]
      simp only
      rw [unlock_mono (fun s l s' h => exec_mono (le_trans (le_max_left n2 n3) (le_max_right n1 _)) h) _ _ _ e2]
      exact exec_mono (le_trans (le_max_right n2 n3) (le_max_right n1 _)) e3

/-! ### Waking -/

/-- The state of the wake-ups. -/
structure WakeI (s : LSt) : Prop where
  depth : 0 ≤ s.locked
  none : s.locked = 0 → s.roused = []
  served : Served s.roused s.log
  unlocked : Unlocked s.log
  asked : Asked s.log
  pending : ∀ b ∈ s.roused, .asked b ∈ s.log

theorem cons_split {α : Type} {e x : α} {l later earlier : List α} (h : e :: l = later ++ x :: earlier) :
    (later = [] ∧ e = x ∧ l = earlier) ∨ ∃ t, later = e :: t ∧ l = t ++ x :: earlier := by
  cases later with
  | nil => simp only [List.nil_append, List.cons.injEq] at h; exact Or.inl ⟨rfl, h.1, h.2⟩
  | cons a t => simp only [List.cons_append, List.cons.injEq] at h; exact Or.inr ⟨t, by rw [h.1], h.2⟩

/-- Another event. -/
theorem WakeI.other {s s' : LSt} {e : LEv} (W : WakeI s) (hl : s'.log = e :: s.log) (h1 : s'.locked = s.locked) (h2 : s'.roused = s.roused)
    (hu : Unlocked [e]) (ha : ∀ b, e ≠ .asked b) (hw : ∀ b d, e ≠ .woke b d) : WakeI s' := by
  refine ⟨by rw [h1]; exact W.depth, by rw [h1, h2]; exact W.none, ?_, ?_, ?_, ?_⟩
  · intro later b earlier h
    rw [hl] at h; rw [h2]
    rcases cons_split h with ⟨_, k, _⟩ | ⟨t, rfl, k⟩
    · exact absurd k (ha b)
    · rcases W.served t b earlier k with q | q
      · exact Or.inl (List.mem_cons_of_mem _ q)
      · exact Or.inr q
  · rw [hl]
    intro x hx
    rcases List.mem_cons.1 hx with rfl | hx
    · exact hu x (by simp)
    · exact W.unlocked x hx
  · intro later b d earlier h
    rw [hl] at h
    rcases cons_split h with ⟨_, k, _⟩ | ⟨t, rfl, k⟩
    · exact absurd k (hw b d)
    · exact W.asked t b d earlier k
  · intro b hb
    rw [hl, h2] at *
    exact List.mem_cons_of_mem _ (W.pending b hb)

theorem WakeI.woke {s s' : LSt} {b : Nat} (W : WakeI s) (hl : s'.log = .woke b 0 :: s.log) (h1 : s'.locked = s.locked)
    (h2 : ∀ c ∈ s.roused, c ∈ s'.roused ∨ c = b) (h2' : ∀ c ∈ s'.roused, c ∈ s.roused) (hb : LEv.asked b ∈ s.log) : WakeI s' := by
  refine ⟨by rw [h1]; exact W.depth, ?_, ?_, ?_, ?_, ?_⟩
  · intro h
    rw [h1] at h
    have := W.none h
    rw [List.eq_nil_iff_forall_not_mem] at this ⊢
    exact fun c hc => this c (h2' c hc)
  · intro later c earlier h
    rw [hl] at h
    rcases cons_split h with ⟨_, k, _⟩ | ⟨t, rfl, k⟩
    · cases k
    · rcases W.served t c earlier k with q | q
      · exact Or.inl (List.mem_cons_of_mem _ q)
      · rcases h2 c q with q | rfl
        · exact Or.inr q
        · exact Or.inl (by simp)
  · rw [hl]
    intro x hx
    rcases List.mem_cons.1 hx with rfl | hx
    · rfl
    · exact W.unlocked x hx
  · intro later c d earlier h
    rw [hl] at h
    rcases cons_split h with ⟨_, k, k'⟩ | ⟨t, rfl, k⟩
    · cases k; rw [← k']; exact hb
    · exact W.asked t c d earlier k
  · intro c hc
    rw [hl]
    exact List.mem_cons_of_mem _ (W.pending c (h2' c hc))

theorem WakeI.ask {s : LSt} (W : WakeI s) (b : Nat) : WakeI (ask s b) := by
  unfold Lk.ask
  split
  · rename_i hl
    refine ⟨W.depth, fun h => absurd h hl, ?_, ?_, ?_, ?_⟩
    · intro later c earlier h
      rcases cons_split h with ⟨_, k, _⟩ | ⟨t, rfl, k⟩
      · cases k
        right; show b ∈ if b ∈ s.roused then s.roused else s.roused ++ [b]
        split <;> simp_all
      · rcases W.served t c earlier k with q | q
        · exact Or.inl (List.mem_cons_of_mem _ q)
        · right; show c ∈ if b ∈ s.roused then s.roused else s.roused ++ [b]
          split <;> simp_all
    · intro x hx
      rcases List.mem_cons.1 hx with rfl | hx
      · trivial
      · exact W.unlocked x hx
    · intro later c d earlier h
      rcases cons_split h with ⟨_, k, _⟩ | ⟨t, rfl, k⟩
      · cases k
      · exact W.asked t c d earlier k
    · intro c hc
      have hc : c ∈ if b ∈ s.roused then s.roused else s.roused ++ [b] := hc
      split at hc
      · exact List.mem_cons_of_mem _ (W.pending c hc)
      · rcases List.mem_append.1 hc with q | q
        · exact List.mem_cons_of_mem _ (W.pending c q)
        · simp at q; rw [q]; simp
  · rename_i hl
    simp only [ne_eq, not_not] at hl
    have hro := W.none hl
    refine ⟨W.depth, W.none, ?_, ?_, ?_, ?_⟩
    · intro later c earlier h
      rcases cons_split h with ⟨_, k, _⟩ | ⟨t, rfl, k⟩
      · cases k
      · rcases cons_split k with ⟨ht, k2, _⟩ | ⟨t', rfl, k2⟩
        · cases k2; left; rw [hl]; simp
        · rcases W.served t' c earlier k2 with q | q
          · exact Or.inl (List.mem_cons_of_mem _ (List.mem_cons_of_mem _ q))
          · exact Or.inr q
    · intro x hx
      rcases List.mem_cons.1 hx with rfl | hx
      · exact hl
      · rcases List.mem_cons.1 hx with rfl | hx
        · trivial
        · exact W.unlocked x hx
    · intro later c d earlier h
      rcases cons_split h with ⟨_, k, k'⟩ | ⟨t, rfl, k⟩
      · cases k; rw [← k']; simp
      · rcases cons_split k with ⟨ht, k2, _⟩ | ⟨t', rfl, k2⟩
        · cases k2
        · exact W.asked t' c d earlier k2
    · intro c hc
      have hc : c ∈ s.roused := hc
      rw [hro] at hc; cases hc

theorem WakeI.addPost {s : LSt} (W : WakeI s) (f : Nat) (k : Option Nat) : WakeI (addPost s f k) := by
  unfold Lk.addPost
  split
  · exact W.other (e := .added f k true s.skip) rfl rfl rfl (by intro e he; simp at he; subst he; trivial) (by simp) (by simp)
  · exact W.other (e := .added f k false s.skip) rfl rfl rfl (by intro e he; simp at he; subst he; trivial) (by simp) (by simp)

theorem WakeI.lock {s : LSt} (W : WakeI s) : WakeI { s with locked := s.locked + 1 } :=
  ⟨by have := W.depth; show 0 ≤ s.locked + 1; omega, fun h => by have := W.depth; have h : s.locked + 1 = 0 := h; omega, W.served, W.unlocked, W.asked, W.pending⟩

/-- Waking everything that waits. -/
theorem wake_all : ∀ (l : List Nat) (s : LSt), s.locked = 0 → Served l s.log → Unlocked s.log → Asked s.log → (∀ b ∈ l, .asked b ∈ s.log) →
    WakeI { s with roused := [], log := (l.map fun b => LEv.woke b 0).reverse ++ s.log }
  | [], s, h0, h1, h2, h3, h4 => ⟨by show 0 ≤ s.locked; omega, fun _ => rfl, h1, h2, h3, by intro b hb; cases hb⟩
  | b :: l, s, h0, h1, h2, h3, h4 => by
    have := wake_all l { s with log := .woke b 0 :: s.log } h0 ?_ ?_ ?_ ?_
    · have e : (List.map (fun b => LEv.woke b 0) (b :: l)).reverse ++ s.log = (List.map (fun b => LEv.woke b 0) l).reverse ++ (LEv.woke b 0 :: s.log) := by simp
      rw [e]; exact this
    · intro later c earlier h
      rcases cons_split h with ⟨_, k, _⟩ | ⟨t, rfl, k⟩
      · cases k
      · rcases h1 t c earlier k with q | q
        · exact Or.inl (List.mem_cons_of_mem _ q)
        · rcases List.mem_cons.1 q with rfl | q
          · exact Or.inl (by simp)
          · exact Or.inr q
    · intro x hx
      rcases List.mem_cons.1 hx with rfl | hx
      · rfl
      · exact h2 x hx
    · intro later c d earlier h
      rcases cons_split h with ⟨_, k, k'⟩ | ⟨t, rfl, k⟩
      · cases k; rw [← k']; exact h4 b (by simp)
      · exact h3 t c d earlier k
    · intro c hc
      exact List.mem_cons_of_mem _ (h4 c (by simp [hc]))

theorem WakeI.release {s : LSt} (W : WakeI s) (h : s.locked = 1) : WakeI (release { s with locked := s.locked - 1 }) := by
  have := wake_all s.roused { s with locked := s.locked - 1 } (by show s.locked - 1 = 0; omega) W.served W.unlocked W.asked W.pending
  have e : s.locked - 1 = 0 := by omega
  unfold Lk.release
  simp only [e] at this ⊢
  exact this

theorem WakeI.posts {s s' : LSt} (W : WakeI s) (hl : s'.log = s.log) (h1 : s'.locked = s.locked) (h2 : s'.roused = s.roused) : WakeI s' :=
  ⟨by rw [h1]; exact W.depth, by rw [h1, h2]; exact W.none, by rw [h2, hl]; exact W.served, by rw [hl]; exact W.unlocked, by rw [hl]; exact W.asked,
    by rw [hl, h2]; exact W.pending⟩

theorem runPosts_wake {ex : LSt → List Act → Option LSt} (hex : ∀ s l s', ex s l = some s' → s'.locked = s.locked ∧ s'.skip = s.skip)
    (hw : ∀ s l s', ex s l = some s' → WakeI s → WakeI s') :
    ∀ (l : List Nat) (s s' : LSt), runPosts prog ex l s = some s' → s.locked = 0 → WakeI s → WakeI s'
  | [], s, s', h, _, W => by simp only [runPosts, Option.some.injEq] at h; subst h; exact W
  | i :: l, s, s', h, h0, W => by
    rw [runPosts] at h
    split at h
    · cases h
    · exact runPosts_wake hex hw l _ s' h h0 (W.posts rfl rfl rfl)
    · split at h
      · cases h
      · rename_i f _ _ s1 e1
        have W1 := hw _ _ _ e1 (W.other (e := .start f s.locked) rfl rfl rfl (by intro e he; simp at he; subst he; exact h0) (by simp) (by simp))
        have k1 : s1.locked = s.locked := (hex _ _ _ e1).1
        exact runPosts_wake hex hw l _ s' h (k1.trans h0)
          (W1.other (e := .finish f) rfl rfl rfl (by intro e he; simp at he; subst he; trivial) (by simp) (by simp))

theorem exec_wake : ∀ (n : Nat) (s : LSt) (l : List Act) (s' : LSt), exec prog n s l = some s' → WakeI s → WakeI s'
  | 0, s, l, s', h, _ => by simp [exec] at h
  | n + 1, s, [], s', h, W => by simp only [exec, Option.some.injEq] at h; subst h; exact W
  | n + 1, s, .wake b :: l, s', h, W => by
    rw [exec] at h; exact exec_wake n _ l s' h (W.ask b)
  | n + 1, s, .post f k :: l, s', h, W => by
    rw [exec] at h; exact exec_wake n _ l s' h (W.addPost f k)
  | n + 1, s, .block run body :: l, s', h, W => by
    rw [exec] at h
    split at h
    · cases h
    · rename_i s1 e1
      split at h
      · cases h
      · rename_i s2 e2
        have W1 := exec_wake n _ body s1 e1 W.lock
        have k1 : s1.locked = s.locked + 1 := (C21_depth _ _ _ _ e1).1
        have hd := W.depth
        refine exec_wake n s2 l s' h ?_
        unfold unlock at e2
        simp only at e2
        split at e2
        · rename_i hne
          simp only [Option.some.injEq] at e2; subst e2
          exact ⟨by show 0 ≤ s1.locked - 1; omega, fun h => absurd h hne, W1.served, W1.unlocked, W1.asked, W1.pending⟩
        · rename_i hz
          simp only [ne_eq, not_not] at hz
          have W2 := W1.release (by omega)
          split at e2
          · split at e2
            · cases e2
            · rename_i s3 e3
              simp only [Option.some.injEq] at e2; subst e2
              have W3 := runPosts_wake (fun s l s' h => C21_depth n s l s' h) (fun s l s' h => exec_wake n s l s' h) _ _ _ e3 hz (W2.posts rfl rfl rfl)
              exact W3.posts rfl rfl rfl
          · simp only [Option.some.injEq] at e2; subst e2; exact W2

/-- A space nothing has been done with. -/
def Lk.idle : LSt := ⟨0, [], false, [], []⟩

/-- Between operations no wake-up waits: each one asked for was made, at depth zero; none was made without being asked
for; and post-step callbacks are called at depth zero. -/
theorem C21_wakes (n : Nat) (l : List Act) (s : LSt) (h : exec prog n idle l = some s) :
    s.roused = [] ∧ Served [] s.log ∧ Asked s.log ∧ Unlocked s.log := by
  have W := exec_wake n idle l s h ⟨le_rfl, fun _ => rfl, by intro a b c h; simp [idle] at h, by intro e he; simp [idle] at he,
    by intro a b c d h; simp [idle] at h, by intro b hb; simp [idle] at hb⟩
  have h0 : s.locked = 0 := (C21_depth n _ l s h).1
  have hr := W.none h0
  refine ⟨hr, ?_, W.asked, W.unlocked⟩
  have := W.served
  rw [hr] at this; exact this

/-! ### Post-step callbacks -/

/-- Callbacks waiting. -/
def Spec.waiting (s : LSt) : List Nat := s.posts.filterMap (·.2)

/-- The state of the callbacks while none is being run. -/
structure PostI (s : LSt) : Prop where
  skip : s.skip = false
  order : ran s.log ++ waiting s = accepted s.log
  running : running s.log = some none
  keys : (s.posts.filterMap (·.1)).Nodup

theorem ran_cons (e : LEv) (l : List LEv) : ran (e :: l) = ran l ++ (match e with | .start f _ => [f] | _ => []) := by
  simp only [ran, List.reverse_cons, List.filterMap_append]
  cases e <;> rfl

theorem accepted_cons (e : LEv) (l : List LEv) : accepted (e :: l) = accepted l ++ (match e with | .added f _ true false => [f] | _ => []) := by
  simp only [accepted, List.reverse_cons, List.filterMap_append]
  cases e with
  | added f k ok d => cases ok <;> cases d <;> rfl
  | _ => rfl

/-- What a list of actions adds to the record while callbacks are being run. -/
structure Quietly (s s' : LSt) : Prop where
  ran : Spec.ran s'.log = Spec.ran s.log
  accepted : Spec.accepted s'.log = Spec.accepted s.log
  running : Spec.running s'.log = Spec.running s.log

theorem Quietly.refl (s : LSt) : Quietly s s := ⟨rfl, rfl, rfl⟩
theorem Quietly.trans {s t u : LSt} (h : Quietly s t) (k : Quietly t u) : Quietly s u :=
  ⟨k.ran.trans h.ran, k.accepted.trans h.accepted, k.running.trans h.running⟩

theorem quietly_ask (s : LSt) (b : Nat) : Quietly s (ask s b) := by
  unfold ask
  split <;> exact ⟨by simp [ran_cons], by simp [accepted_cons], by simp [Spec.running]⟩

theorem quietly_release (s : LSt) : Quietly s (release s) := by
  suffices ∀ (l : List Nat) (d : Int) (k : List LEv), ran ((l.map fun b => LEv.woke b d).reverse ++ k) = ran k ∧
      accepted ((l.map fun b => LEv.woke b d).reverse ++ k) = accepted k ∧ running ((l.map fun b => LEv.woke b d).reverse ++ k) = running k from
    ⟨(this _ _ _).1, (this _ _ _).2.1, (this _ _ _).2.2⟩
  intro l d
  induction l with
  | nil => intro k; exact ⟨rfl, rfl, rfl⟩
  | cons a l ih =>
    intro k
    have e : (List.map (fun b => LEv.woke b d) (a :: l)).reverse ++ k = (List.map (fun b => LEv.woke b d) l).reverse ++ (LEv.woke a d :: k) := by simp
    rw [e]
    obtain ⟨h1, h2, h3⟩ := ih (LEv.woke a d :: k)
    rw [h1, h2, h3]
    exact ⟨by simp [ran_cons], by simp [accepted_cons], by simp [Spec.running]⟩

theorem quietly_congr {s s' : LSt} (h : s'.log = s.log) : Quietly s s' := ⟨by rw [h], by rw [h], by rw [h]⟩

theorem exec_quietly : ∀ (n : Nat) (s : LSt) (l : List Act) (s' : LSt), exec prog n s l = some s' → s.skip = true → Quietly s s'
  | 0, s, l, s', h, _ => by simp [exec] at h
  | n + 1, s, [], s', h, _ => by simp only [exec, Option.some.injEq] at h; subst h; exact Quietly.refl s
  | n + 1, s, .wake b :: l, s', h, hs => by
    rw [exec] at h
    exact (quietly_ask s b).trans (exec_quietly n _ l s' h (by unfold ask; split <;> exact hs))
  | n + 1, s, .post f k :: l, s', h, hs => by
    rw [exec] at h
    refine Quietly.trans ?_ (exec_quietly n _ l s' h (by unfold addPost; split <;> exact hs))
    unfold addPost
    split
    · exact ⟨by simp [ran_cons], by simp [accepted_cons, hs], by simp [Spec.running]⟩
    · exact ⟨by simp [ran_cons], by simp [accepted_cons, hs], by simp [Spec.running]⟩
  | n + 1, s, .block run body :: l, s', h, hs => by
    rw [exec] at h
    split at h
    · cases h
    · rename_i s1 e1
      split at h
      · cases h
      · rename_i s2 e2
        have q1 := exec_quietly n _ body s1 e1 hs
        have hs1 : s1.skip = true := by rw [(C21_depth _ _ _ _ e1).2]; exact hs
        have h2 : s2.skip = true ∧ Quietly s1 s2 := by
          unfold unlock at e2
          simp only at e2
          split at e2
          · simp only [Option.some.injEq] at e2; subst e2; exact ⟨hs1, quietly_congr rfl⟩
          · have hsk : (release { s1 with locked := s1.locked - 1 }).skip = true := hs1
            rw [if_neg (by rw [hsk]; simp), Option.some.injEq] at e2
            subst e2
            exact ⟨hs1, Quietly.trans (t := { s1 with locked := s1.locked - 1 }) (quietly_congr rfl) (quietly_release _)⟩
        exact (Quietly.trans (s := s) (t := { s with locked := s.locked + 1 }) (quietly_congr rfl) q1).trans (h2.2.trans (exec_quietly n s2 l s' h h2.1))

/-- Running the callbacks in the places from `i` on. -/
theorem runPosts_order {n : Nat} : ∀ (m i : Nat) (s s' : LSt) (todo extra : List (Option Nat × Option Nat)), runPosts prog (exec prog n) (List.range' i m) s = some s' →
    s.skip = true → s.posts.drop i = todo ++ extra → todo.length = m → running s.log = some none →
      ran s'.log = ran s.log ++ todo.filterMap (·.2) ∧ accepted s'.log = accepted s.log ∧ running s'.log = some none
  | 0, i, s, s', todo, extra, h, hs, hd, hm, hr => by
    simp only [List.range'_zero, runPosts, Option.some.injEq] at h; subst h
    rw [List.length_eq_zero_iff] at hm
    subst hm; simp [hr]
  | m + 1, i, s, s', todo, extra, h, hs, hd, hm, hr => by
    obtain ⟨⟨k, f⟩, todo', rfl⟩ := List.exists_cons_of_length_eq_add_one hm
    have hi : s.posts[i]? = some (k, f) := by
      have : (s.posts.drop i)[0]? = some (k, f) := by rw [hd]; rfl
      simpa using this
    have hlt : i < s.posts.length := by
      rw [List.getElem?_eq_some_iff] at hi; exact hi.1
    have hdrop : s.posts.drop (i + 1) = todo' ++ extra := by
      have := congrArg List.tail hd
      simpa [List.tail_drop] using this
    rw [List.range'_succ, runPosts] at h
    rw [hi] at h
    have hset : ∀ v, (s.posts.set i v).drop (i + 1) = s.posts.drop (i + 1) := fun v => List.drop_set_of_lt (by omega)
    cases f with
    | none =>
      simp only at h
      obtain ⟨h1, h2, h3⟩ := runPosts_order m (i + 1) { s with posts := s.posts.set i (k, none) } s' todo' extra h hs (by rw [hset, hdrop]) (by simpa using hm) hr
      exact ⟨by rw [h1]; simp, h2, h3⟩
    | some f =>
      simp only at h
      split at h
      · cases h
      · rename_i s1 e1
        have q := exec_quietly _ _ _ _ e1 hs
        have hs1 : s1.skip = true := by rw [(C21_depth _ _ _ _ e1).2]; exact hs
        obtain ⟨x, hx⟩ := exec_skip_posts _ _ _ _ e1 hs
        have hx : s1.posts = s.posts.set i (k, none) ++ x := hx
        have hr1 : running s1.log = some (some f) := by
          rw [q.running]; simp [Spec.running, hr]
        obtain ⟨h1, h2, h3⟩ := runPosts_order m (i + 1) { s1 with log := .finish f :: s1.log } s' todo' (extra ++ x) h hs1
          (by show s1.posts.drop (i + 1) = _
              rw [hx, List.drop_append_of_le_length (by simp; omega), hset, hdrop, List.append_assoc])
          (by simpa using hm) (by simp [Spec.running, hr1])
        refine ⟨?_, ?_, h3⟩
        · rw [h1]
          simp only [ran_cons, q.ran]
          simp
        · rw [h2]
          simp only [accepted_cons, q.accepted]
          simp

theorem PostI.quiet {s s' : LSt} (P : PostI s) (q : Quietly s s') (h1 : s'.skip = s.skip) (h2 : s'.posts = s.posts) : PostI s' :=
  ⟨by rw [h1]; exact P.skip, by rw [q.ran, q.accepted, waiting, h2]; exact P.order, by rw [q.running]; exact P.running, by rw [h2]; exact P.keys⟩

theorem exec_posts : ∀ (n : Nat) (s : LSt) (l : List Act) (s' : LSt), exec prog n s l = some s' → PostI s → PostI s'
  | 0, s, l, s', h, _ => by simp [exec] at h
  | n + 1, s, [], s', h, P => by simp only [exec, Option.some.injEq] at h; subst h; exact P
  | n + 1, s, .wake b :: l, s', h, P => by
    rw [exec] at h
    refine exec_posts n _ l s' h (P.quiet (quietly_ask s b) ?_ ?_) <;> (unfold ask; split <;> rfl)
  | n + 1, s, .post f k :: l, s', h, P => by
    rw [exec] at h
    refine exec_posts n _ l s' h ?_
    unfold addPost
    split
    · rename_i hk
      refine ⟨P.skip, ?_, by simpa [Spec.running] using P.running, ?_⟩
      · simp only [waiting, ran_cons, accepted_cons, P.skip, List.filterMap_append]
        have := P.order
        unfold waiting at this
        simp [← this]
      · rw [List.filterMap_append]
        cases k with
        | none => simpa using P.keys
        | some k =>
          rw [List.nodup_append]
          refine ⟨P.keys, by simp, ?_⟩
          intro a ha b hb
          simp at hb
          rw [List.mem_filterMap] at ha
          obtain ⟨e, he, ha⟩ := ha
          rintro rfl
          exact (hk.resolve_left (by simp)) e he (by rw [ha, hb])
    · exact P.quiet ⟨by simp [ran_cons], by simp [accepted_cons], by simp [Spec.running]⟩ rfl rfl
  | n + 1, s, .block run body :: l, s', h, P => by
    rw [exec] at h
    split at h
    · cases h
    · rename_i s1 e1
      split at h
      · cases h
      · rename_i s2 e2
        have P1 := exec_posts n _ body s1 e1 (P.quiet (s' := { s with locked := s.locked + 1 }) (quietly_congr rfl) rfl rfl)
        refine exec_posts n s2 l s' h ?_
        unfold unlock at e2
        simp only at e2
        split at e2
        · simp only [Option.some.injEq] at e2; subst e2; exact P1.quiet (quietly_congr rfl) rfl rfl
        · have P2 : PostI (release { s1 with locked := s1.locked - 1 }) :=
            (P1.quiet (s' := { s1 with locked := s1.locked - 1 }) (quietly_congr rfl) rfl rfl).quiet (quietly_release _) rfl rfl
          split at e2
          · split at e2
            · cases e2
            · rename_i s3 e3
              simp only [Option.some.injEq] at e2; subst e2
              rw [List.range_eq_range'] at e3
              obtain ⟨h1, h2, h3⟩ := runPosts_order _ 0 _ s3 (release { s1 with locked := s1.locked - 1 }).posts [] e3 rfl (by simp) rfl P2.running
              refine ⟨rfl, ?_, h3, by simp⟩
              show ran s3.log ++ [] = accepted s3.log
              rw [List.append_nil, h1, h2]
              exact P2.order
          · simp only [Option.some.injEq] at e2; subst e2; exact P2

/-- The callbacks called so far, followed by those waiting, are those accepted by `AddPostStepCallback` outside of
post-step callbacks, in order; each therefore is called at most once, in order of registration. No callback is called
while another one runs, and at most one callback waits per key. -/
theorem C20_order (n : Nat) (l : List Act) (s : LSt) (h : exec prog n idle l = some s) :
    ran s.log ++ waiting s = accepted s.log ∧ running s.log = some none ∧ (s.posts.filterMap (·.1)).Nodup := by
  have P := exec_posts n idle l s h ⟨rfl, rfl, rfl, by simp [idle]⟩
  exact ⟨P.order, P.running, P.keys⟩

/-- Full statement: every accepted callback is called exactly once, no later than the end of the current or next step.
It holds for those registered outside of post-step callbacks: when a step ends each of them has been called. -/
theorem C20_step_partial (n : Nat) (l a b : List Act) (s : LSt) (h : exec prog n idle (l ++ stepActs a b) = some s) :
    ran s.log = accepted s.log ∧ s.posts = [] := by
  have hsplit : ∀ (l : List Act) (n : Nat) (s0 s : LSt), exec prog n s0 (l ++ stepActs a b) = some s → s0.locked = 0 → s0.skip = false →
      PostI s0 → s.posts = [] := by
    intro l
    induction l with
    | nil =>
      intro n s0 s h h0 hk P
      match n with
      | 0 => simp [exec] at h
      | 1 => simp [exec, stepActs] at h
      | n + 2 =>
        rw [stepActs, List.nil_append, exec] at h
        split at h
        · cases h
        · rename_i s1 e1
          split at h
          · cases h
          · rename_i s2 e2
            have k1 := C21_depth _ _ _ _ e1
            have hs2 : s2.locked = 0 ∧ s2.skip = false := by
              have := C21_depth (prog := prog) (n + 2) s0 [.block false a] s2 (by rw [exec, e1]; simp only; rw [e2]; rfl)
              rw [this.1, this.2]; exact ⟨h0, hk⟩
            rw [exec] at h
            split at h
            · cases h
            · rename_i s3 e3
              split at h
              · cases h
              · rename_i s4 e4
                have k3 := C21_depth _ _ _ _ e3
                have hl3 : s3.locked = 1 := by rw [k3.1]; show s2.locked + 1 = 1; omega
                have hk3 : s3.skip = false := by rw [k3.2]; exact hs2.2
                have : s = s4 := by
                  cases n with
                  | zero => simp [exec] at h
                  | succ n => simp only [exec, Option.some.injEq] at h; exact h.symm
                subst this
                unfold unlock at e4
                simp only [hl3] at e4
                rw [if_neg (by decide)] at e4
                rw [if_pos (by simp [release, hk3])] at e4
                split at e4
                · cases e4
                · simp only [Option.some.injEq] at e4; subst e4; rfl
    | cons x l ih =>
      intro n s0 s h h0 hk P
      match n with
      | 0 => simp [exec] at h
      | n + 1 =>
        have hone : ∀ s1, exec prog (n + 1) s0 [x] = some s1 → s1.locked = 0 ∧ s1.skip = false ∧ PostI s1 := fun s1 e =>
          ⟨(C21_depth _ _ _ _ e).1.trans h0, (C21_depth _ _ _ _ e).2.trans hk, exec_posts _ _ _ _ e P⟩
        have hn : 0 < n := by
          rcases Nat.eq_zero_or_pos n with rfl | hn
          · exfalso
            cases x <;> simp [exec] at h
          · exact hn
        obtain ⟨m, rfl⟩ : ∃ m, n = m + 1 := ⟨n - 1, by omega⟩
        cases x with
        | wake c =>
          rw [List.cons_append, exec] at h
          obtain ⟨q1, q2, q3⟩ := hone (ask s0 c) rfl
          exact ih _ _ _ h q1 q2 q3
        | post f k =>
          rw [List.cons_append, exec] at h
          obtain ⟨q1, q2, q3⟩ := hone (addPost s0 f k) rfl
          exact ih _ _ _ h q1 q2 q3
        | block run body =>
          rw [List.cons_append, exec] at h
          split at h
          · cases h
          · rename_i s1 e1
            split at h
            · cases h
            · rename_i s2 e2
              obtain ⟨q1, q2, q3⟩ := hone s2 (by rw [exec, e1]; simp only; rw [e2]; rfl)
              exact ih _ _ _ h q1 q2 q3
  have P := exec_posts n idle _ s h ⟨rfl, rfl, rfl, by simp [idle]⟩
  have hp := hsplit l n idle s h rfl rfl ⟨rfl, rfl, rfl, by simp [idle]⟩
  refine ⟨?_, hp⟩
  have := P.order
  rw [waiting, hp] at this
  simpa using this

/-- Callback 0 registers callback 1. -/
def demoProg : Nat → List Act := fun f => if f = 0 then [.post 1 none] else []

/-- A callback registered by a post-step callback is accepted and never called, not even by the next step. -/
theorem C20_dropped : ∃ s, exec demoProg 20 idle (stepActs [] [.post 0 (some 7)] ++ stepActs [] []) = some s ∧
    acceptedDuring s.log = [1] ∧ ran s.log = [0] ∧ s.posts = [] :=
  ⟨(exec demoProg 20 idle (stepActs [] [.post 0 (some 7)] ++ stepActs [] [])).get (by decide +kernel), by simp, by decide +kernel, by decide +kernel, by decide +kernel⟩

/-- Nested operations, deferred wake-ups, a key used twice. -/
example : ∃ s, exec demoProg 30 idle [.block true [.wake 5, .post 2 (some 1), .block true [.wake 6, .wake 5, .post 3 (some 1), .post 4 none]], .wake 7] = some s ∧
    s.log.reverse = [.asked 5, .added 2 (some 1) true false, .asked 6, .asked 5, .added 3 (some 1) false false, .added 4 none true false,
      .woke 5 0, .woke 6 0, .start 2 0, .finish 2, .start 4 0, .finish 4, .asked 7, .woke 7 0] :=
  ⟨(exec demoProg 30 idle [.block true [.wake 5, .post 2 (some 1), .block true [.wake 6, .wake 5, .post 3 (some 1), .post 4 none]], .wake 7]).get (by decide +kernel),
    by simp, by decide +kernel⟩

/-- `BBQuery` calls the callbacks for static shapes with the space unlocked: a body is woken at once, while the static
index is being searched. -/
theorem C21_bbQuery_unlocked : ∃ s, exec demoProg 20 idle (bbQueryActs [.wake 5] [.wake 6]) = some s ∧ s.log.reverse = [.asked 5, .woke 5 0, .asked 6, .woke 6 0] ∧
    ∃ s', exec demoProg 20 { idle with locked := 1 } [.wake 5] = some s' ∧ s'.log.reverse = [.asked 5] :=
  ⟨(exec demoProg 20 idle (bbQueryActs [.wake 5] [.wake 6])).get (by decide +kernel), by simp, by decide +kernel,
    (exec demoProg 20 { idle with locked := 1 } [.wake 5]).get (by decide +kernel), by simp, by decide +kernel⟩

end Cm
