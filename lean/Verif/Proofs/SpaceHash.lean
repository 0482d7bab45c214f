import Verif.Model.SpaceHash
import Mathlib.Algebra.BigOperators.Group.Finset.Basic
import Mathlib.Data.List.Nodup
import Mathlib.Tactic.Linarith
import Mathlib.Tactic.Common

/-!
# Reference counts, cells and queries of the spatial hash
-/

set_option linter.unusedSectionVars false
set_option linter.unusedSimpArgs false
set_option linter.unusedVariables false

namespace Cm
namespace Hash

/-- How often the handle is referred to. -/
def refs (s : St) (h : Nat) : Nat := (if h ∈ s.set then 1 else 0) + ((Finset.range s.n).filter fun i => h ∈ s.table i).card

/-- One more. -/
def bump (δ : Nat → Nat) (h : Nat) : Nat → Nat := fun g => if g = h then δ g + 1 else δ g

/-- The index between two assignments; `δ` counts references not accounted for yet. -/
structure Inv (s : St) (δ : Nat → Nat) : Prop where
  nodup : ∀ i, (s.table i).Nodup
  bound : ∀ i, s.n ≤ i → s.table i = []
  setNodup : s.set.Nodup
  objs : ∀ h ∈ s.set, (s.hd h).obj ≠ none
  inj : ∀ g ∈ s.set, ∀ h ∈ s.set, (s.hd g).obj = (s.hd h).obj → g = h
  orphan : ∀ i h, h ∈ s.table i → h ∉ s.set → (s.hd h).obj = none
  count : ∀ h, (s.hd h).ret = (refs s h : Int) + δ h
  poolNodup : s.pool.Nodup
  poolFree : ∀ h ∈ s.pool, h ∉ s.set ∧ (∀ i, h ∉ s.table i) ∧ δ h = 0
  stamps : ∀ h, (s.hd h).stamp ≤ s.now

theorem setH_hd (s : St) (h g : Nat) (f : Hand → Hand) : (s.setH h f).hd g = if g = h then f (s.hd g) else s.hd g := rfl

theorem setT_table (s : St) (i j : Nat) (l : List Nat) : (s.setT i l).table j = if j = i then l else s.table j := rfl

theorem bump_self (δ : Nat → Nat) (h : Nat) : bump δ h h = δ h + 1 := by simp [bump]

theorem Inv.retain {s : St} {δ : Nat → Nat} (I : Inv s δ) {h : Nat} (hp : h ∉ s.pool) : Inv (retain s h) (bump δ h) := by
  unfold Hash.retain
  refine ⟨I.nodup, I.bound, I.setNodup, ?_, ?_, ?_, ?_, I.poolNodup, ?_, ?_⟩
  · intro g hg; rw [setH_hd]; split <;> exact I.objs g hg
  · intro g hg k hk
    have e : ∀ g, ((s.setH h fun d => { d with ret := d.ret + 1 }).hd g).obj = (s.hd g).obj := by intro g; rw [setH_hd]; split <;> rfl
    rw [e, e]; exact I.inj g hg k hk
  · intro i g hg hn
    have := I.orphan i g hg hn
    rw [setH_hd]; split <;> exact this
  · intro g
    have := I.count g
    rw [setH_hd]
    show (if g = h then _ else _ : Hand).ret = (refs s g : Int) + _
    unfold bump
    split
    · simp only; push_cast; omega
    · exact this
  · intro g hg
    obtain ⟨a, b, c⟩ := I.poolFree g hg
    refine ⟨a, b, ?_⟩
    unfold bump
    rw [if_neg (by rintro rfl; exact hp hg)]; exact c
  · intro g; rw [setH_hd]; split <;> exact I.stamps g

theorem refs_setT (s : St) (i : Nat) (l : List Nat) (h g : Nat) (hm : g ∈ l ↔ g ∈ s.table i) : refs (s.setT i l) g = refs s g := by
  unfold refs
  have : (Finset.filter (fun j => g ∈ (s.setT i l).table j) (Finset.range (s.setT i l).n)) = Finset.filter (fun j => g ∈ s.table j) (Finset.range s.n) := by
    apply Finset.filter_congr
    intro j _
    rw [setT_table]
    split
    · rename_i e; rw [e, hm]
    · rfl
  rw [this]; rfl

theorem refs_push (s : St) (i h : Nat) (l : List Nat) (hi : i < s.n) (h1 : h ∉ s.table i) (h2 : h ∈ l) : refs (s.setT i l) h = refs s h + 1 := by
  unfold refs
  have : (Finset.filter (fun j => h ∈ (s.setT i l).table j) (Finset.range (s.setT i l).n)) = Insert.insert i (Finset.filter (fun j => h ∈ s.table j) (Finset.range s.n)) := by
    ext j
    rw [Finset.mem_filter, Finset.mem_insert, Finset.mem_filter, Finset.mem_range, Finset.mem_range, setT_table]
    show j < s.n ∧ _ ↔ _
    constructor
    · rintro ⟨a, b⟩
      split at b
      · left; assumption
      · right; exact ⟨a, b⟩
    · rintro (rfl | ⟨a, b⟩)
      · simp [hi, h2]
      · refine ⟨a, ?_⟩
        split
        · exact h2
        · exact b
  rw [this, Finset.card_insert_of_notMem (by simp [h1])]
  show (if h ∈ s.set then 1 else 0) + _ = _
  omega

theorem refs_pull (s : St) (i h : Nat) (l : List Nat) (hi : i < s.n) (h1 : h ∈ s.table i) (h2 : h ∉ l) : refs s h = refs (s.setT i l) h + 1 := by
  unfold refs
  have : (Finset.filter (fun j => h ∈ s.table j) (Finset.range s.n)) = Insert.insert i (Finset.filter (fun j => h ∈ (s.setT i l).table j) (Finset.range (s.setT i l).n)) := by
    ext j
    rw [Finset.mem_filter, Finset.mem_insert, Finset.mem_filter, Finset.mem_range, Finset.mem_range, setT_table]
    show _ ↔ _ ∨ (j < s.n ∧ _)
    constructor
    · rintro ⟨a, b⟩
      by_cases hj : j = i
      · left; exact hj
      · right; rw [if_neg hj]; exact ⟨a, b⟩
    · rintro (rfl | ⟨a, b⟩)
      · exact ⟨hi, h1⟩
      · split at b
        · exact absurd b h2
        · exact ⟨a, b⟩
  rw [this, Finset.card_insert_of_notMem (by rw [Finset.mem_filter, setT_table, if_pos rfl]; exact fun hc => h2 hc.2)]
  show (if h ∈ s.set then 1 else 0) + _ = (if h ∈ s.set then 1 else 0) + _ + 1
  omega

theorem Inv.lt {s : St} {δ : Nat → Nat} (I : Inv s δ) {h i : Nat} (hh : h ∈ s.table i) : i < s.n := by
  by_contra hc
  rw [I.bound i (by omega)] at hh; cases hh

theorem Inv.push {s : St} {δ : Nat → Nat} {h i : Nat} (I : Inv s (bump δ h)) (hi : i < s.n) (hn : h ∉ s.table i) (hl : h ∈ s.set ∨ (s.hd h).obj = none) :
    Inv (s.setT i (h :: s.table i)) δ := by
  refine ⟨?_, ?_, I.setNodup, I.objs, I.inj, ?_, ?_, I.poolNodup, ?_, I.stamps⟩
  · intro j; rw [setT_table]; split
    · exact List.nodup_cons.2 ⟨hn, I.nodup i⟩
    · exact I.nodup j
  · intro j hj
    have hj : s.n ≤ j := hj
    rw [setT_table, if_neg (by omega)]; exact I.bound j hj
  · intro j g hg hs
    rw [setT_table] at hg
    have hs : g ∉ s.set := hs
    split at hg
    · rcases List.mem_cons.1 hg with rfl | hg
      · exact hl.resolve_left hs
      · exact I.orphan i g hg hs
    · exact I.orphan j g hg hs
  · intro g
    have := I.count g
    show (s.hd g).ret = _
    rw [this]
    by_cases hg : g = h
    · subst hg
      rw [refs_push s i g _ hi hn (by simp), bump_self]; push_cast; omega
    · rw [refs_setT s i _ h g (by simp [hg])]
      simp [bump, hg]
  · intro g hg
    obtain ⟨a, b, c⟩ := I.poolFree g hg
    have hgh : g ≠ h := by rintro rfl; rw [bump_self] at c; omega
    refine ⟨a, fun j => ?_, by simpa [bump, hgh] using c⟩
    rw [setT_table]; split
    · simp only [List.mem_cons, not_or]; exact ⟨hgh, b i⟩
    · exact b j

theorem Inv.pull {s : St} {δ : Nat → Nat} {h i : Nat} (I : Inv s δ) (hh : h ∈ s.table i) : Inv (s.setT i ((s.table i).erase h)) (bump δ h) := by
  have hi := I.lt hh
  have hne : h ∉ (s.table i).erase h := fun hc => (List.Nodup.mem_erase_iff (I.nodup i)).1 hc |>.1 rfl
  refine ⟨?_, ?_, I.setNodup, I.objs, I.inj, ?_, ?_, I.poolNodup, ?_, I.stamps⟩
  · intro j; rw [setT_table]; split
    · exact (I.nodup i).erase h
    · exact I.nodup j
  · intro j hj
    have hj : s.n ≤ j := hj
    rw [setT_table, if_neg (by omega)]; exact I.bound j hj
  · intro j g hg hs
    rw [setT_table] at hg
    split at hg
    · exact I.orphan i g (List.mem_of_mem_erase hg) hs
    · exact I.orphan j g hg hs
  · intro g
    have := I.count g
    show (s.hd g).ret = _
    rw [this]
    by_cases hg : g = h
    · subst hg
      rw [refs_pull s i g _ hi hh hne, bump_self]; push_cast; omega
    · rw [refs_setT s i _ h g (by rw [List.Nodup.mem_erase_iff (I.nodup i)]; simp [hg])]
      simp [bump, hg]
  · intro g hg
    obtain ⟨a, b, c⟩ := I.poolFree g hg
    have hgh : g ≠ h := by rintro rfl; exact b i hh
    refine ⟨a, fun j => ?_, by simpa [bump, hgh] using c⟩
    rw [setT_table]; split
    · exact fun hc => b i (List.mem_of_mem_erase hc)
    · exact b j

theorem Inv.release {s : St} {δ : Nat → Nat} {h : Nat} (I : Inv s (bump δ h)) : Inv (release s h) δ := by
  have hp : h ∉ s.pool := by
    intro hc
    have := (I.poolFree h hc).2.2
    rw [bump_self] at this; omega
  have key : ∀ pool' : List Nat, pool'.Nodup → (∀ g ∈ pool', g ∉ s.set ∧ (∀ i, g ∉ s.table i) ∧ δ g = 0) →
      Inv { s.setH h (fun d => { d with ret := d.ret - 1 }) with pool := pool' } δ := by
    intro pool' hn hf
    have e : ∀ g, ((s.setH h fun d => { d with ret := d.ret - 1 }).hd g).obj = (s.hd g).obj := by intro g; rw [setH_hd]; split <;> rfl
    refine ⟨I.nodup, I.bound, I.setNodup, ?_, ?_, ?_, ?_, hn, hf, ?_⟩
    · intro g hg; show ((s.setH h fun d => { d with ret := d.ret - 1 }).hd g).obj ≠ none; rw [e]; exact I.objs g hg
    · intro g hg k hk
      show ((s.setH h fun d => { d with ret := d.ret - 1 }).hd g).obj = ((s.setH h fun d => { d with ret := d.ret - 1 }).hd k).obj → _
      rw [e, e]; exact I.inj g hg k hk
    · intro i g hg hs; show ((s.setH h fun d => { d with ret := d.ret - 1 }).hd g).obj = none; rw [e]; exact I.orphan i g hg hs
    · intro g
      have := I.count g
      show ((s.setH h fun d => { d with ret := d.ret - 1 }).hd g).ret = (refs s g : Int) + _
      rw [setH_hd]
      by_cases hg : g = h
      · subst hg
        rw [if_pos rfl]
        rw [bump_self] at this
        simp only; push_cast at this; omega
      · rw [if_neg hg, this]; simp [bump, hg]
    · intro g; show ((s.setH h fun d => { d with ret := d.ret - 1 }).hd g).stamp ≤ s.now; rw [setH_hd]; split <;> exact I.stamps g
  have hold : ∀ g ∈ s.pool, g ∉ s.set ∧ (∀ i, g ∉ s.table i) ∧ δ g = 0 := by
    intro g hg
    obtain ⟨a, b, c⟩ := I.poolFree g hg
    have hgh : g ≠ h := by rintro rfl; exact hp hg
    exact ⟨a, b, by simpa [bump, hgh] using c⟩
  unfold Hash.release
  simp only
  split
  · rename_i hz
    refine key (h :: s.pool) (List.nodup_cons.2 ⟨hp, I.poolNodup⟩) ?_
    intro g hg
    rcases List.mem_cons.1 hg with rfl | hg
    · have := I.count g
      rw [bump_self] at this
      rw [setH_hd, if_pos rfl] at hz
      simp only at hz
      have hr : refs s g = 0 ∧ δ g = 0 := by push_cast at this; omega
      have h0 := hr.1
      unfold refs at h0
      refine ⟨fun hc => ?_, fun i hc => ?_, hr.2⟩
      · rw [if_pos hc] at h0; omega
      · have : i ∈ (Finset.range s.n).filter fun i => g ∈ s.table i := by simp [I.lt hc, hc]
        have := Finset.card_pos.2 ⟨i, this⟩
        omega
    · exact hold g hg
  · exact key s.pool I.poolNodup hold

theorem Inv.dropAt {s : St} {δ : Nat → Nat} {h i : Nat} (I : Inv s δ) (hh : h ∈ s.table i) : Inv (dropAt s i h) δ := (I.pull hh).release

theorem Inv.unset {s : St} {δ : Nat → Nat} {h : Nat} (I : Inv s δ) (hh : h ∈ s.set) :
    Inv ({ s with set := s.set.erase h }.setH h fun d => { d with obj := none }) (bump δ h) := by
  have hm : ∀ g, g ∈ s.set.erase h ↔ g ≠ h ∧ g ∈ s.set := fun g => List.Nodup.mem_erase_iff I.setNodup
  refine ⟨I.nodup, I.bound, I.setNodup.erase h, ?_, ?_, ?_, ?_, I.poolNodup, ?_, ?_⟩
  · intro g hg
    rw [setH_hd, if_neg ((hm g).1 hg).1]; exact I.objs g ((hm g).1 hg).2
  · intro g hg k hk
    rw [setH_hd, setH_hd, if_neg ((hm g).1 hg).1, if_neg ((hm k).1 hk).1]
    exact I.inj g ((hm g).1 hg).2 k ((hm k).1 hk).2
  · intro i g hg hs
    rw [setH_hd]
    split
    · rfl
    · rename_i hne
      exact I.orphan i g hg fun hc => hs ((hm g).2 ⟨hne, hc⟩)
  · intro g
    have := I.count g
    rw [setH_hd]
    by_cases hg : g = h
    · subst hg
      rw [if_pos rfl, bump_self]
      show (s.hd g).ret = _
      rw [this]
      unfold refs
      rw [if_pos hh, if_neg (by show g ∉ s.set.erase g; rw [hm]; simp)]
      push_cast
      show _ = (0 + ((Finset.filter (fun i => g ∈ s.table i) (Finset.range s.n)).card : Int)) + _
      omega
    · rw [if_neg hg]
      show (s.hd g).ret = _
      rw [this]
      have : refs ({ s with set := s.set.erase h }.setH h fun d => { d with obj := none }) g = refs s g := by
        unfold refs
        show (if g ∈ s.set.erase h then 1 else 0) + _ = _
        simp only [hm, ne_eq, hg, not_false_eq_true, true_and]
        rfl
      rw [this]; simp [bump, hg]
  · intro g hg
    obtain ⟨a, b, c⟩ := I.poolFree g hg
    have hgh : g ≠ h := by rintro rfl; exact a hh
    exact ⟨fun hc => a ((hm g).1 hc).2, b, by simpa [bump, hgh] using c⟩
  · intro g; rw [setH_hd]; split <;> exact I.stamps g

theorem Inv.enlist {s : St} {δ : Nat → Nat} {h x : Nat} (I : Inv s δ) (h1 : h ∉ s.set) (h2 : ∀ i, h ∉ s.table i) (h3 : δ h = 0)
    (hx : ∀ g ∈ s.set, (s.hd g).obj ≠ some x) :
    Inv { s.setH h (fun _ => ⟨some x, 1, 0⟩) with pool := s.pool.erase h, set := h :: s.set } δ := by
  have hne : ∀ g ∈ s.set, g ≠ h := by rintro g hg rfl; exact h1 hg
  refine ⟨I.nodup, I.bound, List.nodup_cons.2 ⟨h1, I.setNodup⟩, ?_, ?_, ?_, ?_, I.poolNodup.erase h, ?_, ?_⟩
  · intro g hg
    show ((s.setH h fun _ => ⟨some x, 1, 0⟩).hd g).obj ≠ none
    rw [setH_hd]
    split
    · simp
    · rename_i e
      exact I.objs g ((List.mem_cons.1 hg).resolve_left e)
  · intro g hg k hk
    show ((s.setH h fun _ => ⟨some x, 1, 0⟩).hd g).obj = ((s.setH h fun _ => ⟨some x, 1, 0⟩).hd k).obj → _
    rw [setH_hd, setH_hd]
    intro e
    rcases List.mem_cons.1 hg with g1 | g1 <;> rcases List.mem_cons.1 hk with k1 | k1
    · rw [g1, k1]
    · rw [if_pos g1, if_neg (hne k k1)] at e; exact absurd e.symm (hx k k1)
    · rw [if_pos k1, if_neg (hne g g1)] at e; exact absurd e (hx g g1)
    · rw [if_neg (hne g g1), if_neg (hne k k1)] at e; exact I.inj g g1 k k1 e
  · intro i g hg hs
    show ((s.setH h fun _ => ⟨some x, 1, 0⟩).hd g).obj = none
    have hg' : g ≠ h := by rintro rfl; exact h2 i hg
    rw [setH_hd, if_neg hg']
    exact I.orphan i g hg fun hc => hs (List.mem_cons_of_mem _ hc)
  · intro g
    show ((s.setH h fun _ => ⟨some x, 1, 0⟩).hd g).ret = _
    rw [setH_hd]
    by_cases hg : g = h
    · subst hg
      rw [if_pos rfl, h3]
      unfold refs
      have : (Finset.filter (fun i => g ∈ s.table i) (Finset.range s.n)) = ∅ := by
        ext j; simp [h2]
      show (1 : Int) = (((if g ∈ g :: s.set then 1 else 0) + (Finset.filter (fun i => g ∈ s.table i) (Finset.range s.n)).card : Nat) : Int) + _
      rw [this]; simp
    · rw [if_neg hg, I.count g]
      congr 2
      unfold refs
      show _ = (if g ∈ h :: s.set then 1 else 0) + (Finset.filter (fun i => g ∈ s.table i) (Finset.range s.n)).card
      simp [hg]
  · intro g hg
    have hg' := (List.Nodup.mem_erase_iff I.poolNodup).1 hg
    obtain ⟨a, b, c⟩ := I.poolFree g hg'.2
    exact ⟨by simp only [List.mem_cons, not_or]; exact ⟨hg'.1, a⟩, b, c⟩
  · intro g
    show ((s.setH h fun _ => ⟨some x, 1, 0⟩).hd g).stamp ≤ s.now
    rw [setH_hd]
    split
    · exact Nat.zero_le _
    · exact I.stamps g

theorem Inv.mark {s : St} {δ : Nat → Nat} (I : Inv s δ) (h : Nat) : Inv (s.setH h fun d => { d with stamp := s.now }) δ := by
  have e : ∀ g, ((s.setH h fun d => { d with stamp := s.now }).hd g).obj = (s.hd g).obj := by intro g; rw [setH_hd]; split <;> rfl
  refine ⟨I.nodup, I.bound, I.setNodup, ?_, ?_, ?_, ?_, I.poolNodup, I.poolFree, ?_⟩
  · intro g hg; rw [e]; exact I.objs g hg
  · intro g hg k hk; rw [e, e]; exact I.inj g hg k hk
  · intro i g hg hs; rw [e]; exact I.orphan i g hg hs
  · intro g
    have := I.count g
    rw [setH_hd]; split <;> exact this
  · intro g
    rw [setH_hd]; split
    · exact le_rfl
    · exact I.stamps g

theorem Inv.tick {s : St} {δ : Nat → Nat} (I : Inv s δ) : Inv { s with now := s.now + 1 } δ :=
  ⟨I.nodup, I.bound, I.setNodup, I.objs, I.inj, I.orphan, I.count, I.poolNodup, I.poolFree, fun h => Nat.le_succ_of_le (I.stamps h)⟩

/-! ### Queries -/

/-- What a query leaves alone. -/
structure Same (s t : St) : Prop where
  set : t.set = s.set
  now : t.now = s.now
  n : t.n = s.n
  objs : ∀ h, (t.hd h).obj = (s.hd h).obj
  live : ∀ i h, h ∈ s.set → (h ∈ t.table i ↔ h ∈ s.table i)
  sub : ∀ i h, h ∈ t.table i → h ∈ s.table i

theorem Same.refl (s : St) : Same s s := ⟨rfl, rfl, rfl, fun _ => rfl, fun _ _ _ => Iff.rfl, fun _ _ h => h⟩

theorem Same.trans {s t u : St} (a : Same s t) (b : Same t u) : Same s u :=
  ⟨b.set.trans a.set, b.now.trans a.now, b.n.trans a.n, fun h => (b.objs h).trans (a.objs h),
    fun i h hh => (b.live i h (by rw [a.set]; exact hh)).trans (a.live i h hh), fun i h hh => a.sub i h (b.sub i h hh)⟩

theorem release_fields (s : St) (h : Nat) : (release s h).set = s.set ∧ (release s h).now = s.now ∧ (release s h).n = s.n ∧ (release s h).table = s.table ∧
    (∀ g, ((release s h).hd g).obj = (s.hd g).obj ∧ ((release s h).hd g).stamp = (s.hd g).stamp) := by
  unfold release
  simp only
  split
  · refine ⟨rfl, rfl, rfl, rfl, fun g => ?_⟩
    simp only [setH_hd]; split <;> exact ⟨rfl, rfl⟩
  · refine ⟨rfl, rfl, rfl, rfl, fun g => ?_⟩
    rw [setH_hd]; split <;> exact ⟨rfl, rfl⟩

theorem dropAt_fields (s : St) (i h : Nat) : (dropAt s i h).set = s.set ∧ (dropAt s i h).now = s.now ∧ (dropAt s i h).n = s.n ∧
    (∀ j, (dropAt s i h).table j = if j = i then (s.table i).erase h else s.table j) ∧
    (∀ g, ((dropAt s i h).hd g).obj = (s.hd g).obj ∧ ((dropAt s i h).hd g).stamp = (s.hd g).stamp) := by
  obtain ⟨a, b, c, d, e⟩ := release_fields (s.setT i ((s.table i).erase h)) h
  refine ⟨a, b, c, fun j => ?_, e⟩
  unfold dropAt
  rw [d]; rfl

/-- Orphans leave a cell. -/
theorem removeOrphans_ok (i : Nat) : ∀ (l : List Nat) (s : St) (δ : Nat → Nat), Inv s δ → l.Nodup → (∀ h ∈ l, h ∈ s.table i) →
    Inv (removeOrphans i l s) δ ∧ Same s (removeOrphans i l s) ∧ (∀ h, ((removeOrphans i l s).hd h).stamp = (s.hd h).stamp) ∧
      (∀ h ∈ l, (s.hd h).obj = none → h ∉ (removeOrphans i l s).table i)
  | [], s, δ, I, _, _ => ⟨I, Same.refl s, fun _ => rfl, by simp⟩
  | h :: l, s, δ, I, hn, hl => by
    rw [removeOrphans]
    have hn' := List.nodup_cons.1 hn
    split
    · rename_i ho
      obtain ⟨a, b, c, d, e⟩ := dropAt_fields s i h
      have hh := hl h (by simp)
      have hs : h ∉ s.set := fun hc => I.objs h hc ho
      have S1 : Same s (dropAt s i h) := by
        refine ⟨a, b, c, fun g => (e g).1, fun j g hg => ?_, fun j g hg => ?_⟩
        · rw [d]; split
          · rename_i e; subst e
            rw [List.Nodup.mem_erase_iff (I.nodup j)]
            exact ⟨fun h => h.2, fun h => ⟨by rintro rfl; exact hs hg, h⟩⟩
          · rfl
        · rw [d] at hg; split at hg
          · rename_i e; subst e; exact List.mem_of_mem_erase hg
          · exact hg
      obtain ⟨I2, S2, t2, o2⟩ := removeOrphans_ok i l (dropAt s i h) δ (I.dropAt hh) hn'.2 (by
        intro g hg
        rw [d, if_pos rfl, List.Nodup.mem_erase_iff (I.nodup i)]
        exact ⟨by rintro rfl; exact hn'.1 hg, hl g (by simp [hg])⟩)
      refine ⟨I2, S1.trans S2, fun g => (t2 g).trans (e g).2, ?_⟩
      intro g hg hgo hc
      rcases List.mem_cons.1 hg with rfl | hg
      · have := S2.sub i g hc
        rw [d, if_pos rfl, List.Nodup.mem_erase_iff (I.nodup i)] at this
        exact this.1 rfl
      · exact o2 g hg ((e g).1.trans hgo) hc
    · rename_i ho
      obtain ⟨I2, S2, t2, o2⟩ := removeOrphans_ok i l s δ I hn'.2 (fun g hg => hl g (by simp [hg]))
      refine ⟨I2, S2, t2, ?_⟩
      intro g hg hgo
      rcases List.mem_cons.1 hg with rfl | hg
      · exact absurd hgo ho
      · exact o2 g hg hgo

/-- The shapes reported so far are those of the handles marked. -/
structure Seen (s : St) (out : List Nat) : Prop where
  marked : ∀ h, (s.hd h).stamp = s.now → h ∈ s.set ∧ ∃ x ∈ out, (s.hd h).obj = some x
  shown : ∀ x ∈ out, ∃ h ∈ s.set, (s.hd h).obj = some x ∧ (s.hd h).stamp = s.now
  nodup : out.Nodup

theorem Seen.same {s t : St} {out : List Nat} (Q : Seen s out) (S : Same s t) (h : ∀ h, (t.hd h).stamp = (s.hd h).stamp) : Seen t out := by
  refine ⟨fun g hg => ?_, fun x hx => ?_, Q.nodup⟩
  · rw [h, S.now] at hg
    obtain ⟨a, x, b, c⟩ := Q.marked g hg
    exact ⟨by rw [S.set]; exact a, x, b, (S.objs g).trans c⟩
  · obtain ⟨g, a, b, c⟩ := Q.shown x hx
    exact ⟨g, by rw [S.set]; exact a, (S.objs g).trans b, by rw [h, S.now]; exact c⟩

theorem isObj_iff (obj : Option Nat) (d : Hand) {x : Nat} (h : d.obj = some x) : isObj obj d = true ↔ obj = some x := by
  unfold isObj
  cases obj with
  | none => simp
  | some y => simp [h, eq_comm]

theorem scan_ok (obj : Option Nat) (i : Nat) : ∀ (l : List Nat) (s : St) (δ : Nat → Nat) (out : List Nat), Inv s δ → Seen s out → (∀ h ∈ l, h ∈ s.table i) →
    Inv (scan obj l s).1 δ ∧ Same s (scan obj l s).1 ∧ (scan obj l s).1.table = s.table ∧ Seen (scan obj l s).1 (out ++ (scan obj l s).2.1) ∧
      (∀ x ∈ (scan obj l s).2.1, some x ≠ obj ∧ ∃ h ∈ l, h ∈ s.set ∧ (s.hd h).obj = some x) ∧
      ((scan obj l s).2.2 = false → ∀ h ∈ l, h ∈ s.set → ∀ x, (s.hd h).obj = some x → some x ≠ obj → x ∈ out ++ (scan obj l s).2.1) ∧
      ((scan obj l s).2.2 = true → ∃ h ∈ l, (s.hd h).obj = none)
  | [], s, δ, out, I, Q, _ => ⟨I, Same.refl s, rfl, by simpa [scan] using Q, by simp [scan], by simp, by simp [scan]⟩
  | h :: l, s, δ, out, I, Q, hl => by
    rw [scan]
    split
    · rename_i hc
      obtain ⟨I2, S2, t2, Q2, a2, b2, c2⟩ := scan_ok obj i l s δ out I Q (fun g hg => hl g (by simp [hg]))
      refine ⟨I2, S2, t2, Q2, ?_, ?_, ?_⟩
      · intro x hx
        obtain ⟨p, g, q, r⟩ := a2 x hx
        exact ⟨p, g, by simp [q], r⟩
      · intro hb g hg hs x hx hne
        rcases List.mem_cons.1 hg with rfl | hg
        · rcases hc with hc | hc
          · obtain ⟨_, y, hy, hxy⟩ := Q.marked g hc
            rw [hx, Option.some.injEq] at hxy
            subst hxy
            exact List.mem_append_left _ hy
          · exact absurd ((isObj_iff obj _ hx).1 hc).symm hne
        · exact b2 hb g hg hs x hx hne
      · intro hb
        obtain ⟨g, hg, ho⟩ := c2 hb
        exact ⟨g, by simp [hg], ho⟩
    · rename_i hc
      rw [not_or] at hc
      split
      · rename_i y hy
        have hs : h ∈ s.set := by
          by_contra hn
          rw [I.orphan i h (hl h (by simp)) hn] at hy; cases hy
        have hyo : some y ≠ obj := fun e => hc.2 ((isObj_iff obj _ hy).2 e.symm)
        have hyn : y ∉ out := by
          intro hm
          obtain ⟨g, g1, g2, g3⟩ := Q.shown y hm
          have := I.inj g g1 h hs (by rw [g2, hy])
          subst this
          exact hc.1 g3
        have S1 : Same s (s.setH h fun d => { d with stamp := s.now }) := by
          refine ⟨rfl, rfl, rfl, fun g => ?_, fun _ _ _ => Iff.rfl, fun _ _ h => h⟩
          rw [setH_hd]; split <;> rfl
        have Q1 : Seen (s.setH h fun d => { d with stamp := s.now }) (out ++ [y]) := by
          refine ⟨fun g hg => ?_, fun x hx => ?_, ?_⟩
          · rw [setH_hd] at hg ⊢
            by_cases e : g = h
            · subst e; rw [if_pos rfl]; exact ⟨hs, y, by simp, hy⟩
            · rw [if_neg e] at hg ⊢
              obtain ⟨a, x, b, c⟩ := Q.marked g hg
              exact ⟨a, x, by simp [b], c⟩
          · rcases List.mem_append.1 hx with hx | hx
            · obtain ⟨g, a, b, c⟩ := Q.shown x hx
              refine ⟨g, a, (S1.objs g).trans b, ?_⟩
              rw [setH_hd]; split
              · rfl
              · exact c
            · simp only [List.mem_singleton] at hx
              subst hx
              exact ⟨h, hs, (S1.objs h).trans hy, by rw [setH_hd, if_pos rfl]; rfl⟩
          · exact List.nodup_append.2 ⟨Q.nodup, by simp, by intro a ha b hb; simp at hb; subst hb; rintro rfl; exact hyn ha⟩
        obtain ⟨I2, S2, t2, Q2, a2, b2, c2⟩ := scan_ok obj i l (s.setH h fun d => { d with stamp := s.now }) δ (out ++ [y]) (I.mark h) Q1
          (fun g hg => hl g (by simp [hg]))
        refine ⟨I2, S1.trans S2, t2, by simpa using Q2, ?_, ?_, ?_⟩
        · intro x hx
          rcases List.mem_cons.1 hx with rfl | hx
          · exact ⟨hyo, h, by simp, hs, hy⟩
          · obtain ⟨p, g, q, r, t⟩ := a2 x hx
            exact ⟨p, g, by simp [q], r, (S1.objs g).symm.trans t⟩
        · intro hb g hg hgs x hx hne
          rcases List.mem_cons.1 hg with rfl | hg
          · rw [hy, Option.some.injEq] at hx; subst hx; simp
          · have := b2 hb g hg hgs x ((S1.objs g).trans hx) hne
            simpa using this
        · intro hb
          obtain ⟨g, hg, ho⟩ := c2 hb
          exact ⟨g, by simp [hg], (S1.objs g).symm.trans ho⟩
      · rename_i hy
        exact ⟨I, Same.refl s, rfl, by simpa using Q, by simp, by simp, fun _ => ⟨h, by simp, hy⟩⟩

/-- What looking through a cell or several does. -/
structure Looked (s t : St) (δ : Nat → Nat) (obj : Option Nat) (out o : List Nat) (P : Nat → Prop) : Prop where
  inv : Inv t δ
  same : Same s t
  seen : Seen t (out ++ o)
  sound : ∀ x ∈ o, some x ≠ obj ∧ ∃ i h, P i ∧ h ∈ s.table i ∧ h ∈ s.set ∧ (s.hd h).obj = some x
  full : ∀ i h, P i → h ∈ s.table i → h ∈ s.set → ∀ x, (s.hd h).obj = some x → some x ≠ obj → x ∈ out ++ o

theorem queryCell_ok (obj : Option Nat) (i : Nat) (s : St) (δ : Nat → Nat) (out : List Nat) (I : Inv s δ) (Q : Seen s out) (n : Nat) (hn : (s.table i).length < n) :
    ∃ t o, queryCell obj i n s = some (t, o) ∧ Looked s t δ obj out o (· = i) := by
  obtain ⟨n, rfl⟩ : ∃ m, n = m + 1 := ⟨n - 1, by omega⟩
  obtain ⟨I2, S2, t2, Q2, a2, b2, c2⟩ := scan_ok obj i (s.table i) s δ out I Q (fun _ h => h)
  rw [queryCell]
  rcases hsc : scan obj (s.table i) s with ⟨s1, o1, b⟩
  rw [hsc] at I2 S2 t2 Q2 a2 b2 c2
  simp only at I2 S2 t2 Q2 a2 b2 c2
  cases b with
  | false =>
    simp only
    refine ⟨s1, o1, rfl, I2, S2, Q2, fun x hx => ?_, ?_⟩
    · obtain ⟨p, h, q, r, t⟩ := a2 x hx
      exact ⟨p, i, h, rfl, q, r, t⟩
    · rintro j h rfl hh hs x hx hne
      exact b2 rfl h hh hs x hx hne
  | true =>
    simp only
    obtain ⟨h0, hh0, _⟩ := c2 rfl
    obtain ⟨m, rfl⟩ : ∃ m, n = m + 1 := by
      have := List.length_pos_of_mem hh0
      exact ⟨n - 1, by omega⟩
    obtain ⟨I3, S3, t3, o3⟩ := removeOrphans_ok i (s1.table i) s1 δ I2 (I2.nodup i) (fun _ h => h)
    have Q3 := Q2.same S3 t3
    obtain ⟨I4, S4, t4, Q4, a4, b4, c4⟩ := scan_ok obj i ((removeOrphans i (s1.table i) s1).table i) (removeOrphans i (s1.table i) s1) δ (out ++ o1) I3 Q3 (fun _ h => h)
    rw [queryCell]
    have SS := S2.trans S3
    rcases hsc2 : scan obj ((removeOrphans i (s1.table i) s1).table i) (removeOrphans i (s1.table i) s1) with ⟨s4, o4, b⟩
    rw [hsc2] at I4 S4 t4 Q4 a4 b4 c4
    simp only at I4 S4 t4 Q4 a4 b4 c4
    have hb : b = false := by
      cases b with
      | false => rfl
      | true =>
        obtain ⟨g, hg, ho⟩ := c4 rfl
        have hg1 := S3.sub i g hg
        exact absurd hg (o3 g hg1 ((S3.objs g).symm.trans ho))
    subst hb
    simp only
    refine ⟨s4, o1 ++ o4, rfl, I4, SS.trans S4, by simpa using Q4, fun x hx => ?_, ?_⟩
    · rcases List.mem_append.1 hx with hx | hx
      · obtain ⟨p, h, q, r, t⟩ := a2 x hx
        exact ⟨p, i, h, rfl, q, r, t⟩
      · obtain ⟨p, h, q, r, t⟩ := a4 x hx
        exact ⟨p, i, h, rfl, SS.sub i h q, by rw [← SS.set]; exact r, (SS.objs h).symm.trans t⟩
    · rintro j h rfl hh hs x hx hne
      have := b4 rfl h ((SS.live j h hs).2 hh) (by rw [SS.set]; exact hs) x ((SS.objs h).trans hx) hne
      simpa using this

theorem Looked.then {s t u : St} {δ : Nat → Nat} {obj : Option Nat} {out o p : List Nat} {P R : Nat → Prop} (a : Looked s t δ obj out o P)
    (b : Looked t u δ obj (out ++ o) p R) : Looked s u δ obj out (o ++ p) (fun i => P i ∨ R i) := by
  refine ⟨b.inv, a.same.trans b.same, by simpa using b.seen, fun x hx => ?_, fun i h hi hh hs x hx hne => ?_⟩
  · rcases List.mem_append.1 hx with hx | hx
    · obtain ⟨q, i, h, c, d, e⟩ := a.sound x hx
      exact ⟨q, i, h, Or.inl c, d, e⟩
    · obtain ⟨q, i, h, c, d, e, f⟩ := b.sound x hx
      exact ⟨q, i, h, Or.inr c, a.same.sub i h d, by rw [← a.same.set]; exact e, (a.same.objs h).symm.trans f⟩
  · rcases hi with hi | hi
    · have := a.full i h hi hh hs x hx hne
      rw [← List.append_assoc]; exact List.mem_append_left _ this
    · have := b.full i h hi ((a.same.live i h hs).2 hh) (by rw [a.same.set]; exact hs) x ((a.same.objs h).trans hx) hne
      rw [← List.append_assoc]; exact this

theorem queryCells_ok (obj : Option Nat) : ∀ (l : List Nat) (s : St) (δ : Nat → Nat) (out : List Nat), Inv s δ → Seen s out →
    ∃ t o, queryCells obj l s = some (t, o) ∧ Looked s t δ obj out o (· ∈ l)
  | [], s, δ, out, I, Q => ⟨s, [], rfl, I, Same.refl s, by simpa using Q, by simp, by simp⟩
  | i :: l, s, δ, out, I, Q => by
    obtain ⟨t, o, e, L⟩ := queryCell_ok obj i s δ out I Q _ (Nat.lt_succ_self _)
    obtain ⟨u, p, e', L'⟩ := queryCells_ok obj l t δ (out ++ o) L.inv L.seen
    refine ⟨u, o ++ p, by rw [queryCells, e]; simp only; rw [e'], ?_⟩
    have := L.then L'
    simpa only [List.mem_cons] using this

/-- Between operations: no reference is outstanding and no handle is marked. -/
structure Ok (s : St) : Prop where
  inv : Inv s fun _ => 0
  calm : ∀ h, (s.hd h).stamp < s.now

theorem Ok.seen {s : St} (H : Ok s) : Seen s [] :=
  ⟨fun h e => absurd e (Nat.ne_of_lt (H.calm h)), by simp, by simp⟩

theorem Ok.empty (n : Nat) : Ok (empty n) := by
  refine ⟨⟨by simp [Hash.empty], by simp [Hash.empty], by simp [Hash.empty], by simp [Hash.empty], by simp [Hash.empty], by simp [Hash.empty], ?_, by simp [Hash.empty],
    by simp [Hash.empty], by simp [Hash.empty]⟩, by simp [Hash.empty]⟩
  intro h
  simp [Hash.empty, refs]

/-- The shape is filed under the cells: `C x` are those of shape `x`, `none` if it is not in the index. -/
def Filed (s : St) (C : Nat → Option (List Nat)) : Prop :=
  (∀ h ∈ s.set, ∀ x, (s.hd h).obj = some x → ∃ l, C x = some l ∧ ∀ i, h ∈ s.table i ↔ i ∈ l) ∧ ∀ x, C x ≠ none → ∃ h ∈ s.set, (s.hd h).obj = some x

theorem Filed.same {s t : St} {C : Nat → Option (List Nat)} (F : Filed s C) (S : Same s t) : Filed t C := by
  refine ⟨fun h hh x hx => ?_, fun x hx => ?_⟩
  · rw [S.set] at hh
    obtain ⟨l, e, m⟩ := F.1 h hh x ((S.objs h).symm.trans hx)
    exact ⟨l, e, fun i => (S.live i h hh).trans (m i)⟩
  · obtain ⟨h, a, b⟩ := F.2 x hx
    exact ⟨h, by rw [S.set]; exact a, (S.objs h).trans b⟩

/-- A query: it ends, and reports once each shape with a cell among those looked at. -/
theorem query_ok {s : St} {C : Nat → Option (List Nat)} (H : Ok s) (F : Filed s C) (obj : Option Nat) (l : List Nat) :
    ∃ t o, query s obj l = some (t, o) ∧ Ok t ∧ Filed t C ∧ t.n = s.n ∧ t.set = s.set ∧ o.Nodup ∧
      ∀ x, x ∈ o ↔ some x ≠ obj ∧ ∃ m, C x = some m ∧ ∃ i ∈ l, i ∈ m := by
  obtain ⟨t, o, e, L⟩ := queryCells_ok obj l s (fun _ => 0) [] H.inv H.seen
  refine ⟨{ t with now := t.now + 1 }, o, by rw [query, e], ⟨L.inv.tick, fun h => Nat.lt_succ_of_le (L.inv.stamps h)⟩, (show Filed t C from F.same L.same), L.same.n, L.same.set, by simpa using L.seen.nodup, fun x => ?_⟩
  constructor
  · intro hx
    obtain ⟨a, i, h, b, c, d, f⟩ := L.sound x hx
    obtain ⟨m, hm, hi⟩ := F.1 h d x f
    exact ⟨a, m, hm, i, b, (hi i).1 c⟩
  · rintro ⟨a, m, hm, i, hi, him⟩
    obtain ⟨h, hs, ho⟩ := F.2 x (by rw [hm]; simp)
    obtain ⟨m', hm', hi'⟩ := F.1 h hs x ho
    rw [hm, Option.some.injEq] at hm'
    subst hm'
    have := L.full i h hi ((hi' i).2 him) hs x ho a
    simpa using this

/-! ### Insertion and removal -/

theorem addAt_ok {s : St} {h i : Nat} (I : Inv s fun _ => 0) (hh : h ∈ s.set) (hi : i < s.n) :
    Inv (addAt s h i) (fun _ => 0) ∧ (addAt s h i).set = s.set ∧ (addAt s h i).n = s.n ∧ (addAt s h i).now = s.now ∧ (addAt s h i).pool = s.pool ∧
      (∀ g, ((addAt s h i).hd g).obj = (s.hd g).obj ∧ ((addAt s h i).hd g).stamp = (s.hd g).stamp) ∧
      (∀ j g, g ∈ (addAt s h i).table j ↔ g ∈ s.table j ∨ (g = h ∧ j = i)) := by
  unfold addAt
  split
  · rename_i hm
    refine ⟨I, rfl, rfl, rfl, rfl, fun _ => ⟨rfl, rfl⟩, fun j g => ⟨Or.inl, ?_⟩⟩
    rintro (a | ⟨rfl, rfl⟩)
    · exact a
    · exact hm
  · rename_i hm
    have hp : h ∉ s.pool := fun hc => (I.poolFree h hc).1 hh
    refine ⟨(I.retain hp).push (s := retain s h) hi hm (Or.inl hh), rfl, rfl, rfl, rfl, fun g => ?_, fun j g => ?_⟩
    · show ((retain s h).hd g).obj = _ ∧ ((retain s h).hd g).stamp = _
      unfold retain; rw [setH_hd]; split <;> exact ⟨rfl, rfl⟩
    · show g ∈ (if j = i then h :: s.table i else s.table j) ↔ _
      split
      · rename_i e; subst e
        rw [List.mem_cons]; simp only [and_true]; exact or_comm
      · rename_i e; simp [e]

theorem hashHandle_ok {h : Nat} : ∀ (l : List Nat) (s : St), Inv s (fun _ => 0) → h ∈ s.set → (∀ i ∈ l, i < s.n) →
    Inv (hashHandle s h l) (fun _ => 0) ∧ (hashHandle s h l).set = s.set ∧ (hashHandle s h l).n = s.n ∧ (hashHandle s h l).now = s.now ∧ (hashHandle s h l).pool = s.pool ∧
      (∀ g, ((hashHandle s h l).hd g).obj = (s.hd g).obj ∧ ((hashHandle s h l).hd g).stamp = (s.hd g).stamp) ∧
      (∀ j g, g ∈ (hashHandle s h l).table j ↔ g ∈ s.table j ∨ (g = h ∧ j ∈ l))
  | [], s, I, _, _ => ⟨I, rfl, rfl, rfl, rfl, fun _ => ⟨rfl, rfl⟩, by simp [hashHandle]⟩
  | i :: l, s, I, hh, hl => by
    obtain ⟨I1, a1, b1, c1, p1, d1, e1⟩ := addAt_ok (i := i) I hh (hl i (by simp))
    obtain ⟨I2, a2, b2, c2, p2, d2, e2⟩ := hashHandle_ok l (addAt s h i) I1 (by rw [a1]; exact hh) (by intro j hj; rw [b1]; exact hl j (by simp [hj]))
    refine ⟨I2, a2.trans a1, b2.trans b1, c2.trans c1, p2.trans p1, fun g => ⟨(d2 g).1.trans (d1 g).1, (d2 g).2.trans (d1 g).2⟩, fun j g => ?_⟩
    show g ∈ (hashHandle (addAt s h i) h l).table j ↔ _
    rw [e2, e1, List.mem_cons]
    tauto

theorem find_none {s : St} {x : Nat} (h : find s x = none) : ∀ g ∈ s.set, (s.hd g).obj ≠ some x := by
  intro g hg
  have := List.find?_eq_none.1 h g hg
  simpa using this

theorem find_some {s : St} {x h : Nat} (e : find s x = some h) : h ∈ s.set ∧ (s.hd h).obj = some x :=
  ⟨List.mem_of_find?_eq_some e, by simpa using List.find?_some e⟩

theorem Filed.find_none_iff {s : St} {C : Nat → Option (List Nat)} (F : Filed s C) (x : Nat) : find s x = none ↔ C x = none := by
  constructor
  · intro h
    by_contra hc
    obtain ⟨g, a, b⟩ := F.2 x hc
    exact find_none h g a b
  · intro h
    by_contra hc
    obtain ⟨g, hg⟩ := Option.ne_none_iff_exists'.1 hc
    obtain ⟨a, b⟩ := find_some hg
    obtain ⟨l, e, _⟩ := F.1 g a x b
    rw [h] at e; cases e

/-- What `sync.Pool` promises: a handle put into it before and not taken since, or a new one. -/
def CanGet (s : St) (h : Nat) : Prop := h ∈ s.pool ∨ (h ∉ s.set ∧ ∀ i, h ∉ s.table i)

theorem CanGet.free {s : St} {δ : Nat → Nat} {h : Nat} (g : CanGet s h) (I : Inv s δ) : h ∉ s.set ∧ ∀ i, h ∉ s.table i := by
  rcases g with g | g
  · exact ⟨(I.poolFree h g).1, (I.poolFree h g).2.1⟩
  · exact g

theorem insert_ok {s : St} {C : Nat → Option (List Nat)} (H : Ok s) (F : Filed s C) {x h : Nat} {l : List Nat} (hx : C x = none) (hg : CanGet s h)
    (hl : ∀ i ∈ l, i < s.n) :
    Ok (insert s x h l) ∧ (insert s x h l).n = s.n ∧ (insert s x h l).set = h :: s.set ∧ ((insert s x h l).hd h).obj = some x ∧
      Filed (insert s x h l) fun y => if y = x then some l else C y := by
  have hf := (F.find_none_iff x).2 hx
  obtain ⟨f1, f2⟩ := hg.free H.inv
  have I1 := H.inv.enlist (x := x) f1 f2 rfl (find_none hf)
  obtain ⟨I2, a2, b2, c2, p2, d2, e2⟩ := hashHandle_ok (h := h) l _ I1 (by simp) hl
  unfold insert
  rw [hf]
  simp only
  have ho : ∀ g, ((hashHandle { s.setH h (fun _ => ⟨some x, 1, 0⟩) with pool := s.pool.erase h, set := h :: s.set } h l).hd g).obj = if g = h then some x else (s.hd g).obj := by
    intro g; rw [(d2 g).1]; show ((s.setH h fun _ => ⟨some x, 1, 0⟩).hd g).obj = _; rw [setH_hd]; split <;> rfl
  refine ⟨⟨I2, fun g => ?_⟩, b2, a2, by rw [ho, if_pos rfl], ?_, ?_⟩
  · rw [(d2 g).2, c2]
    show ((s.setH h fun _ => ⟨some x, 1, 0⟩).hd g).stamp < s.now
    rw [setH_hd]; split
    · exact lt_of_le_of_lt (Nat.zero_le _) (H.calm h)
    · exact H.calm g
  · intro g hgs y hy
    rw [a2] at hgs
    rw [ho] at hy
    simp only
    by_cases hgh : g = h
    · subst hgh
      rw [if_pos rfl, Option.some.injEq] at hy
      subst hy
      refine ⟨l, by simp, fun i => ?_⟩
      rw [e2]
      show g ∈ s.table i ∨ _ ↔ _
      simp [f2 i]
    · rw [if_neg hgh] at hy
      have hgs' : g ∈ s.set := by
        rcases List.mem_cons.1 hgs with e | e
        · exact absurd e hgh
        · exact e
      obtain ⟨m, hm, hi⟩ := F.1 g hgs' y hy
      refine ⟨m, ?_, fun i => ?_⟩
      · rw [if_neg]
        · exact hm
        · rintro rfl; rw [hx] at hm; cases hm
      · rw [e2]
        show g ∈ s.table i ∨ _ ↔ _
        simp [hgh, hi i]
  · intro y hy
    by_cases e : y = x
    · subst e; exact ⟨h, by rw [a2]; simp, by rw [ho, if_pos rfl]⟩
    · simp only [if_neg e] at hy
      obtain ⟨g, a, b⟩ := F.2 y hy
      exact ⟨g, by rw [a2]; exact List.mem_cons_of_mem _ a, by rw [ho, if_neg (by rintro rfl; exact f1 a)]; exact b⟩

theorem remove_ok {s : St} {C : Nat → Option (List Nat)} (H : Ok s) (F : Filed s C) (x : Nat) :
    Ok (remove s x) ∧ (remove s x).n = s.n ∧ Filed (remove s x) fun y => if y = x then none else C y := by
  unfold remove
  split
  · rename_i hf
    have hx := (F.find_none_iff x).1 hf
    refine ⟨H, rfl, ?_⟩
    have : (fun y => if y = x then none else C y) = C := by funext y; split <;> simp_all
    rw [this]; exact F
  · rename_i h hf
    obtain ⟨hh, ho⟩ := find_some hf
    have I1 := H.inv.unset hh
    have I2 := I1.release
    obtain ⟨a, b, c, d, e⟩ := release_fields ({ s with set := s.set.erase h }.setH h fun d => { d with obj := none }) h
    have e1 : ∀ g, (({ s with set := s.set.erase h }.setH h fun d => { d with obj := none }).hd g).stamp = (s.hd g).stamp := by
      intro g; rw [setH_hd]; split <;> rfl
    have hm : ∀ g, g ∈ s.set.erase h ↔ g ≠ h ∧ g ∈ s.set := fun g => List.Nodup.mem_erase_iff H.inv.setNodup
    have e2 : ∀ g, g ≠ h → (({ s with set := s.set.erase h }.setH h fun d => { d with obj := none }).hd g).obj = (s.hd g).obj := by
      intro g hg; rw [setH_hd, if_neg hg]
    refine ⟨⟨I2, fun g => by rw [(e g).2, e1, b]; exact H.calm g⟩, c, ?_, ?_⟩
    · intro g hg y hy
      rw [a] at hg
      have hg' := (hm g).1 hg
      rw [(e g).1, e2 g hg'.1] at hy
      obtain ⟨m, h1, h2⟩ := F.1 g hg'.2 y hy
      refine ⟨m, ?_, fun i => by rw [d]; exact h2 i⟩
      simp only
      rw [if_neg]
      · exact h1
      · rintro rfl
        exact hg'.1 (H.inv.inj g hg'.2 h hh (by rw [hy, ho]))
    · intro y hy
      simp only at hy
      split at hy
      · exact absurd rfl hy
      · rename_i hne
        obtain ⟨g, p, q⟩ := F.2 y hy
        have hgh : g ≠ h := by rintro rfl; rw [ho, Option.some.injEq] at q; exact hne q.symm
        exact ⟨g, by rw [a]; exact (hm g).2 ⟨hgh, p⟩, by rw [(e g).1, e2 g hgh]; exact q⟩

/-! ### Clearing and rebuilding -/

theorem clearCell_ok (i : Nat) : ∀ (l : List Nat) (s : St), Ok s → s.table i = l →
    Ok (l.foldl (fun s h => dropAt s i h) s) ∧ (l.foldl (fun s h => dropAt s i h) s).set = s.set ∧ (l.foldl (fun s h => dropAt s i h) s).n = s.n ∧
      (∀ g, ((l.foldl (fun s h => dropAt s i h) s).hd g).obj = (s.hd g).obj) ∧
      (∀ j, (l.foldl (fun s h => dropAt s i h) s).table j = if j = i then [] else s.table j)
  | [], s, H, e => ⟨H, rfl, rfl, fun _ => rfl, fun j => by
      show s.table j = _
      split
      · rename_i h; rw [h, e]
      · rfl⟩
  | h :: l, s, H, e => by
    obtain ⟨a, b, c, d, f⟩ := dropAt_fields s i h
    have H1 : Ok (dropAt s i h) := ⟨H.inv.dropAt (by rw [e]; simp), fun g => by rw [(f g).2, b]; exact H.calm g⟩
    obtain ⟨H2, a2, b2, c2, d2⟩ := clearCell_ok i l (dropAt s i h) H1 (by rw [d, if_pos rfl, e]; simp)
    refine ⟨H2, a2.trans a, b2.trans c, fun g => (c2 g).trans (f g).1, fun j => ?_⟩
    show (l.foldl (fun s h => dropAt s i h) (dropAt s i h)).table j = _
    rw [d2]
    split
    · rfl
    · rename_i hj; rw [d, if_neg hj]

theorem clearFold_ok : ∀ (l : List Nat) (s : St), Ok s →
    Ok (l.foldl clearCell s) ∧ (l.foldl clearCell s).set = s.set ∧ (l.foldl clearCell s).n = s.n ∧ (∀ g, ((l.foldl clearCell s).hd g).obj = (s.hd g).obj) ∧
      (∀ j, (l.foldl clearCell s).table j = if j ∈ l then [] else s.table j)
  | [], s, H => ⟨H, rfl, rfl, fun _ => rfl, fun j => by simp⟩
  | i :: l, s, H => by
    obtain ⟨H1, a1, b1, c1, d1⟩ := clearCell_ok i (s.table i) s H rfl
    obtain ⟨H2, a2, b2, c2, d2⟩ := clearFold_ok l (clearCell s i) H1
    refine ⟨H2, a2.trans a1, b2.trans b1, fun g => (c2 g).trans (c1 g), fun j => ?_⟩
    show (l.foldl clearCell (clearCell s i)).table j = _
    rw [d2]
    by_cases hj : j ∈ l
    · rw [if_pos hj, if_pos (List.mem_cons_of_mem _ hj)]
    · rw [if_neg hj]
      show (List.foldl (fun s h => dropAt s i h) s (s.table i)).table j = _
      rw [d1]
      by_cases e : j = i
      · rw [if_pos e, if_pos (by rw [e]; simp)]
      · rw [if_neg e, if_neg (by simp [e, hj])]

theorem clearTable_ok {s : St} (H : Ok s) :
    Ok (clearTable s) ∧ (clearTable s).set = s.set ∧ (clearTable s).n = s.n ∧ (∀ g, ((clearTable s).hd g).obj = (s.hd g).obj) ∧ ∀ j, (clearTable s).table j = [] := by
  obtain ⟨H2, a2, b2, c2, d2⟩ := clearFold_ok (List.range s.n) s H
  refine ⟨H2, a2, b2, c2, fun j => ?_⟩
  unfold clearTable
  rw [d2]
  split
  · rfl
  · rename_i h
    exact H.inv.bound j (by simpa using h)

/-- Filing one handle and reporting what is there already. -/
theorem rehashCells_ok {h x : Nat} : ∀ (l : List Nat) (s : St) (out : List Nat), Inv s (fun _ => 0) → Seen s out → h ∈ s.set → (s.hd h).obj = some x → (∀ i ∈ l, i < s.n) →
    (∀ i, h ∈ s.table i → ∀ g ∈ s.table i, g ∈ s.set → ∀ y, (s.hd g).obj = some y → y ≠ x → y ∈ out) →
    ∃ t o, rehashCells h l s = some (t, o) ∧ Inv t (fun _ => 0) ∧ t.set = s.set ∧ t.n = s.n ∧ t.now = s.now ∧ (∀ g, (t.hd g).obj = (s.hd g).obj) ∧ Seen t (out ++ o) ∧
      (∀ i g, g ∈ s.set → (g ∈ t.table i ↔ g ∈ s.table i ∨ (g = h ∧ i ∈ l))) ∧
      (∀ i g, g ∈ t.table i → g ∈ s.table i ∨ g = h) ∧
      (∀ y ∈ o, y ≠ x ∧ ∃ i ∈ l, ∃ g ∈ s.table i, g ∈ s.set ∧ (s.hd g).obj = some y) ∧
      (∀ i ∈ l, ∀ g ∈ s.table i, g ∈ s.set → ∀ y, (s.hd g).obj = some y → y ≠ x → y ∈ out ++ o)
  | [], s, out, I, Q, hh, hx, _, _ => ⟨s, [], rfl, I, rfl, rfl, rfl, fun _ => rfl, by simpa using Q, by simp, fun _ _ h => Or.inl h, by simp, by simp⟩
  | i :: l, s, out, I, Q, hh, hx, hl, hd => by
    rw [rehashCells]
    split
    · rename_i hm
      obtain ⟨t, o, e, I2, a2, b2, c2, d2, Q2, m2, n2, s2, f2⟩ := rehashCells_ok l s out I Q hh hx (fun j hj => hl j (by simp [hj])) hd
      refine ⟨t, o, e, I2, a2, b2, c2, d2, Q2, fun j g hg => ?_, n2, fun y hy => ?_, fun j hj g hg hs y hy hne => ?_⟩
      · rw [m2 j g hg, List.mem_cons]
        constructor
        · rintro (h | ⟨h1, h2⟩)
          · exact Or.inl h
          · exact Or.inr ⟨h1, Or.inr h2⟩
        · rintro (h | ⟨rfl, rfl | h2⟩)
          · exact Or.inl h
          · exact Or.inl hm
          · exact Or.inr ⟨rfl, h2⟩
      · obtain ⟨p, j, hj, q⟩ := s2 y hy
        exact ⟨p, j, by simp [hj], q⟩
      · rcases List.mem_cons.1 hj with rfl | hj
        · exact List.mem_append_left _ (hd j hm g hg hs y hy hne)
        · exact f2 j hj g hg hs y hy hne
    · rename_i hm
      simp only
      have hp : h ∉ s.pool := fun hc => (I.poolFree h hc).1 hh
      have I1 := I.retain hp
      have S1 : Same s (retain s h) := ⟨rfl, rfl, rfl, fun g => by unfold retain; rw [setH_hd]; split <;> rfl, fun _ _ _ => Iff.rfl, fun _ _ h => h⟩
      have t1 : ∀ g, ((retain s h).hd g).stamp = (s.hd g).stamp := by intro g; unfold retain; rw [setH_hd]; split <;> rfl
      have Q1 := Q.same S1 t1
      rw [S1.objs h, hx]
      obtain ⟨t, o, e, L⟩ := queryCell_ok (some x) i (retain s h) _ out I1 Q1 _ (Nat.lt_succ_self _)
      rw [e]
      simp only
      have S2 := S1.trans L.same
      have htm : h ∉ t.table i := fun hc => hm (S2.sub i h hc)
      have hht : h ∈ t.set := by rw [S2.set]; exact hh
      have I3 := L.inv.push (i := i) (by rw [S2.n]; exact hl i (by simp)) htm (Or.inl hht)
      have Q3 : Seen (t.setT i (h :: t.table i)) (out ++ o) := ⟨L.seen.marked, L.seen.shown, L.seen.nodup⟩
      have mem3 : ∀ j g, g ∈ (t.setT i (h :: t.table i)).table j ↔ g ∈ t.table j ∨ (g = h ∧ j = i) := by
        intro j g; rw [setT_table]; split
        · rename_i e; subst e; rw [List.mem_cons]; simp only [and_true]; exact or_comm
        · rename_i e; simp [e]
      have full : ∀ g ∈ s.table i, g ∈ s.set → ∀ y, (s.hd g).obj = some y → y ≠ x → y ∈ out ++ o := fun g hg hs y hy hne =>
        L.full i g rfl hg hs y ((S1.objs g).trans hy) (by simpa using hne)
      obtain ⟨u, p, e', I4, a4, b4, c4, d4, Q4, m4, n4, s4, f4⟩ := rehashCells_ok l (t.setT i (h :: t.table i)) (out ++ o) I3 Q3 hht ((S2.objs h).trans hx)
        (fun j hj => by show j < t.n; rw [S2.n]; exact hl j (by simp [hj])) (by
          intro j hj g hg hgs y hy hne
          have hgs' : g ∈ s.set := by rw [← S2.set]; exact hgs
          have hy' : (s.hd g).obj = some y := (S2.objs g).symm.trans hy
          have hgh : g ≠ h := by rintro rfl; rw [hx, Option.some.injEq] at hy'; exact hne hy'.symm
          have hgt : g ∈ s.table j := by
            rcases (mem3 j g).1 hg with h1 | ⟨h1, _⟩
            · exact S2.sub j g h1
            · exact absurd h1 hgh
          rcases (mem3 j h).1 hj with h1 | ⟨_, rfl⟩
          · exact List.mem_append_left _ (hd j (S2.sub j h h1) g hgt hgs' y hy' hne)
          · exact full g hgt hgs' y hy' hne)
      rw [e']
      refine ⟨u, o ++ p, rfl, I4, a4.trans S2.set, b4.trans S2.n, c4.trans S2.now, fun g => (d4 g).trans (S2.objs g), by simpa using Q4, ?_, ?_, ?_, ?_⟩
      · intro j g hg
        rw [m4 j g (by show g ∈ t.set; rw [S2.set]; exact hg), mem3, S2.live j g hg, List.mem_cons]
        tauto
      · intro j g hg
        rcases n4 j g hg with h1 | h1
        · rcases (mem3 j g).1 h1 with h2 | h2
          · exact Or.inl (S2.sub j g h2)
          · exact Or.inr h2.1
        · exact Or.inr h1
      · intro y hy
        rcases List.mem_append.1 hy with hy | hy
        · obtain ⟨q, j, g, rfl, hg, hs, ho⟩ := L.sound y hy
          exact ⟨by simpa using q, j, by simp, g, hg, hs, (S1.objs g).symm.trans ho⟩
        · obtain ⟨q, j, hj, g, hg, hs, ho⟩ := s4 y hy
          have ho' : (s.hd g).obj = some y := (S2.objs g).symm.trans ho
          have hgh : g ≠ h := by rintro rfl; rw [hx, Option.some.injEq] at ho'; exact q ho'.symm
          refine ⟨q, j, by simp [hj], g, ?_, by rw [← S2.set]; exact hs, ho'⟩
          rcases (mem3 j g).1 hg with h2 | h2
          · exact S2.sub j g h2
          · exact absurd h2.1 hgh
      · intro j hj g hg hs y hy hne
        rcases List.mem_cons.1 hj with rfl | hj
        · have := full g hg hs y hy hne
          rw [← List.append_assoc]; exact List.mem_append_left _ this
        · have := f4 j hj g ((mem3 j g).2 (Or.inl ((S2.live j g hs).2 hg))) (by show g ∈ t.set; rw [S2.set]; exact hs) y ((S2.objs g).trans hy) hne
          simpa using this

/-- Two shapes share a cell. -/
def share (cells : Nat → List Nat) (x y : Nat) : Prop := ∃ i ∈ cells x, i ∈ cells y

theorem share_symm {cells : Nat → List Nat} {x y : Nat} (h : share cells x y) : share cells y x := let ⟨i, a, b⟩ := h; ⟨i, b, a⟩

/-- Filing all handles of `l` when those of `D` are filed. -/
theorem rehashAll_ok (cells : Nat → List Nat) : ∀ (l D : List Nat) (s : St), Ok s → (∀ x, ∀ i ∈ cells x, i < s.n) → (∀ h ∈ l, h ∈ s.set) → (∀ h ∈ D, h ∈ s.set) → l.Nodup →
    (∀ h ∈ l, h ∉ D) → (∀ i g, g ∈ s.table i ↔ g ∈ D ∧ ∃ x, (s.hd g).obj = some x ∧ i ∈ cells x) →
    ∃ t P, rehashAll cells l s = some (t, P) ∧ Ok t ∧ t.set = s.set ∧ t.n = s.n ∧ (∀ g, (t.hd g).obj = (s.hd g).obj) ∧
      (∀ i g, g ∈ t.table i ↔ (g ∈ D ∨ g ∈ l) ∧ ∃ x, (s.hd g).obj = some x ∧ i ∈ cells x) ∧
      (∀ a b, (a, b) ∈ P → a ≠ b ∧ share cells a b ∧ (∃ g ∈ l, (s.hd g).obj = some a) ∧ ∃ g, (g ∈ D ∨ g ∈ l) ∧ (s.hd g).obj = some b) ∧
      P.Nodup ∧ (∀ a b, (a, b) ∈ P → (b, a) ∉ P) ∧
      (∀ g ∈ l, ∀ k, (k ∈ D ∨ k ∈ l) → g ≠ k → ∀ a b, (s.hd g).obj = some a → (s.hd k).obj = some b → share cells a b → (a, b) ∈ P ∨ (b, a) ∈ P)
  | [], D, s, H, _, _, _, _, _, ht => ⟨s, [], rfl, H, rfl, rfl, fun _ => rfl, by simpa using ht, by simp, by simp, by simp, by simp⟩
  | h :: l, D, s, H, hc, hl, hD, hn, hdis, ht => by
    have hn' := List.nodup_cons.1 hn
    have hh := hl h (by simp)
    obtain ⟨x, hx⟩ := Option.ne_none_iff_exists'.1 (H.inv.objs h hh)
    have hhD := hdis h (by simp)
    have hnt : ∀ i, h ∉ s.table i := fun i hi => hhD ((ht i h).1 hi).1
    obtain ⟨t, o, e, I2, a2, b2, c2, d2, Q2, m2, n2, s2, f2⟩ := rehashCells_ok (h := h) (x := x) (cells x) s [] H.inv H.seen hh hx (hc x)
      (fun i hi => absurd hi (hnt i))
    have H2 : Ok { t with now := t.now + 1 } := ⟨I2.tick, fun g => Nat.lt_succ_of_le (I2.stamps g)⟩
    have ht2 : ∀ i g, g ∈ t.table i ↔ g ∈ h :: D ∧ ∃ x, (t.hd g).obj = some x ∧ i ∈ cells x := by
      intro i g
      rw [d2]
      constructor
      · intro hg
        have hgs : g ∈ s.set := by
          rcases n2 i g hg with h1 | h1
          · exact hD g ((ht i g).1 h1).1
          · rw [h1]; exact hh
        rcases (m2 i g hgs).1 hg with h1 | ⟨rfl, h1⟩
        · exact ⟨List.mem_cons_of_mem _ ((ht i g).1 h1).1, ((ht i g).1 h1).2⟩
        · exact ⟨by simp, x, hx, h1⟩
      · rintro ⟨h1, y, hy, hi⟩
        rcases List.mem_cons.1 h1 with rfl | h1
        · rw [hx, Option.some.injEq] at hy; subst hy
          exact (m2 i g hh).2 (Or.inr ⟨rfl, hi⟩)
        · exact (m2 i g (hD g h1)).2 (Or.inl ((ht i g).2 ⟨h1, y, hy, hi⟩))
    obtain ⟨u, P, e', H3, a3, b3, c3, t3, p3, q3, r3, f3⟩ := rehashAll_ok cells l (h :: D) { t with now := t.now + 1 } H2 (by intro y i hi; show i < t.n; rw [b2]; exact hc y i hi)
      (fun g hg => by show g ∈ t.set; rw [a2]; exact hl g (by simp [hg]))
      (fun g hg => by
        show g ∈ t.set; rw [a2]
        rcases List.mem_cons.1 hg with rfl | hg
        · exact hh
        · exact hD g hg)
      hn'.2 (fun g hg => by
        simp only [List.mem_cons, not_or]
        exact ⟨by rintro rfl; exact hn'.1 hg, hdis g (by simp [hg])⟩) ht2
    have oD : ∀ y ∈ o, y ≠ x ∧ share cells x y ∧ ∃ g ∈ D, (s.hd g).obj = some y := by
      intro y hy
      obtain ⟨h1, i, hi, g, hg, hs, ho⟩ := s2 y hy
      obtain ⟨g1, z, hz, hiz⟩ := (ht i g).1 hg
      rw [ho, Option.some.injEq] at hz; subst hz
      exact ⟨h1, ⟨i, hi, hiz⟩, g, g1, ho⟩
    have tailA : ∀ a b, (a, b) ∈ P → ∃ g ∈ l, (s.hd g).obj = some a := by
      intro a b hab
      obtain ⟨_, _, ⟨g, g1, g2⟩, _⟩ := p3 a b hab
      exact ⟨g, g1, (d2 g).symm.trans g2⟩
    refine ⟨u, o.map (fun y => (x, y)) ++ P, ?_, H3, a3.trans a2, b3.trans b2, fun g => (c3 g).trans (d2 g), ?_, ?_, ?_, ?_, ?_⟩
    · rw [rehashAll, hx]; simp only; rw [e]; simp only; rw [e']
    · intro i g
      rw [t3]
      show _ ∧ (∃ x, (t.hd g).obj = some x ∧ _) ↔ _
      rw [d2, List.mem_cons, List.mem_cons]
      tauto
    · intro a b hab
      rcases List.mem_append.1 hab with hab | hab
      · obtain ⟨y, hy, e⟩ := List.mem_map.1 hab
        rw [Prod.mk.injEq] at e
        obtain ⟨rfl, rfl⟩ := e
        obtain ⟨h1, h2, g, h3, h4⟩ := oD y hy
        exact ⟨fun e => h1 e.symm, h2, ⟨h, by simp, hx⟩, g, Or.inl h3, h4⟩
      · obtain ⟨h1, h2, ⟨g, g1, g2⟩, k, k1, k2⟩ := p3 a b hab
        refine ⟨h1, h2, ⟨g, by simp [g1], (d2 g).symm.trans g2⟩, k, ?_, (d2 k).symm.trans k2⟩
        rcases k1 with k1 | k1
        · rcases List.mem_cons.1 k1 with rfl | k1
          · exact Or.inr (by simp)
          · exact Or.inl k1
        · exact Or.inr (by simp [k1])
    · rw [List.nodup_append]
      refine ⟨(by simpa using Q2.nodup : o.Nodup).map (fun a b e => by simpa using e), q3, ?_⟩
      rintro ⟨a, b⟩ hab c hc rfl
      obtain ⟨y, hy, e⟩ := List.mem_map.1 hab
      rw [Prod.mk.injEq] at e
      obtain ⟨rfl, rfl⟩ := e
      obtain ⟨g, g1, g2⟩ := tailA _ _ hc
      have := H.inv.inj g (hl g (by simp [g1])) h hh (by rw [g2, hx])
      subst this
      exact hn'.1 g1
    · have cross : ∀ y ∈ o, (y, x) ∉ P := by
        intro y hy hc
        obtain ⟨_, _, k, k1, k2⟩ := oD y hy
        obtain ⟨g, g1, g2⟩ := tailA _ _ hc
        have := H.inv.inj g (hl g (by simp [g1])) k (hD k k1) (by rw [g2, k2])
        subst this
        exact hdis g (by simp [g1]) k1
      intro a b hab hba
      rcases List.mem_append.1 hab with hab | hab <;> rcases List.mem_append.1 hba with hba | hba
      · obtain ⟨y, hy, e⟩ := List.mem_map.1 hab
        obtain ⟨z, hz, e2⟩ := List.mem_map.1 hba
        rw [Prod.mk.injEq] at e e2
        exact (oD y hy).1 (by rw [e.2, ← e2.1])
      · obtain ⟨y, hy, e⟩ := List.mem_map.1 hab
        rw [Prod.mk.injEq] at e
        rw [← e.1, ← e.2] at hba
        exact cross y hy hba
      · obtain ⟨y, hy, e⟩ := List.mem_map.1 hba
        rw [Prod.mk.injEq] at e
        rw [← e.1, ← e.2] at hab
        exact cross y hy hab
      · exact r3 a b hab hba
    · intro g hg k hk hgk a b ha hb hs
      have headD : ∀ k ∈ D, ∀ b, (s.hd k).obj = some b → share cells x b → (x, b) ∈ o.map (fun y => (x, y)) ++ P := by
        intro k hkD b hb hs
        obtain ⟨i, i1, i2⟩ := hs
        have hbx : b ≠ x := by
          rintro rfl
          have := H.inv.inj k (hD k hkD) h hh (by rw [hb, hx])
          subst this; exact hhD hkD
        have := f2 i i1 k ((ht i k).2 ⟨hkD, b, hb, i2⟩) (hD k hkD) b hb hbx
        exact List.mem_append_left _ (List.mem_map.2 ⟨b, by simpa using this, rfl⟩)
      have tail : ∀ g ∈ l, ∀ k, (k ∈ h :: D ∨ k ∈ l) → g ≠ k → ∀ a b, (s.hd g).obj = some a → (s.hd k).obj = some b → share cells a b → (a, b) ∈ P ∨ (b, a) ∈ P :=
        fun g hg k hk hne a b ha hb hs => f3 g hg k hk hne a b ((d2 g).trans ha) ((d2 k).trans hb) hs
      rcases List.mem_cons.1 hg with rfl | hg
      · rw [hx, Option.some.injEq] at ha; subst ha
        rcases hk with hk | hk
        · exact Or.inl (headD k hk b hb hs)
        · rcases List.mem_cons.1 hk with rfl | hk
          · exact absurd rfl hgk
          · rcases tail k hk g (Or.inl (by simp)) (fun e => hgk e.symm) b x hb hx (share_symm hs) with h1 | h1
            · exact Or.inr (List.mem_append_right _ h1)
            · exact Or.inl (List.mem_append_right _ h1)
      · have hk' : k ∈ h :: D ∨ k ∈ l := by
          rcases hk with hk | hk
          · exact Or.inl (List.mem_cons_of_mem _ hk)
          · rcases List.mem_cons.1 hk with rfl | hk
            · exact Or.inl (by simp)
            · exact Or.inr hk
        rcases tail g hg k hk' hgk a b ha hb hs with h1 | h1
        · exact Or.inl (List.mem_append_right _ h1)
        · exact Or.inr (List.mem_append_right _ h1)

end Hash
end Cm
