import Verif.Model.Space
import Mathlib.Data.List.Basic
import Mathlib.Data.List.Nodup
import Mathlib.Data.List.Perm.Basic
import Mathlib.Tactic.Common

/-! # Space bookkeeping: the invariant and what the loops do -/
set_option linter.unusedSectionVars false
set_option linter.unusedSimpArgs false
set_option linter.unusedVariables false

namespace Cm
namespace Sp
variable {K : Type}

/-! ### The invariant

`T` are bodies on their way from asleep to awake, `P` collisions of this step that are not yet in the lists of their
bodies, `sl` the roots of the sleeping groups. Between calls `T` and `P` are empty and `sl` is `s.sleeping`. -/

/-- The body is asleep or on its way to being awake. -/
def off (s : St K) (T : List Nat) (b : Nat) : Prop := (s.bd b).root ≠ none ∨ b ∈ T

/-- Which of the two bodies moves the collision or joint between the lists: space.go:185, 210. -/
def owner (s : St K) (a b : Nat) : Nat := if (s.bd a).kind = .static then b else a

/-- Following `sleepingNext` from `o` gives the list. -/
def Path (s : St K) : Option Nat → List Nat → Prop
  | none, [] => True
  | some b, c :: l => b = c ∧ Path s (s.bd b).next l
  | _, _ => False

structure Groups (s : St K) (sl T : List Nat) : Prop where
  nodup : sl.Nodup
  nodupT : T.Nodup
  chain : ∀ r ∈ sl, ∃ l, Path s (some r) l ∧ l.Nodup ∧ ∀ b, b ∈ l ↔ (b ∉ T ∧ (s.bd b).root = some r)
  root : ∀ b r, b ∉ T → (s.bd b).root = some r → r ∈ sl ∧ (s.bd b).kind = .dynamic ∧ (s.bd b).space = true
  trans : ∀ b ∈ T, (s.bd b).kind = .dynamic ∧ (s.bd b).space = true
  next : ∀ b, (s.bd b).root = none → (s.bd b).next = none
  nb : ∀ b, (s.bd b).space = true → b < s.nb

structure BLists (s : St K) (T : List Nat) : Prop where
  dynN : s.dyn.Nodup
  statN : s.stat.Nodup
  dyn : ∀ b, b ∈ s.dyn ↔ ((s.bd b).space = true ∧ (s.bd b).kind ≠ .static ∧ ¬ off s T b)
  stat : ∀ b, b ∈ s.stat ↔ ((s.bd b).space = true ∧ (s.bd b).kind = .static)

/-- The shapes of the body belong in the static index. -/
def frozen (s : St K) (T : List Nat) (b : Nat) : Prop := (s.bd b).kind = .static ∨ off s T b

structure ShapesI (s : St K) (T : List Nat) : Prop where
  dynN : s.dynIdx.Nodup
  statN : s.statIdx.Nodup
  dyn : ∀ x, x ∈ s.dynIdx ↔ ((s.sh x).space = true ∧ ¬ frozen s T (s.sh x).body)
  stat : ∀ x, x ∈ s.statIdx ↔ ((s.sh x).space = true ∧ frozen s T (s.sh x).body)
  att : ∀ b x, x ∈ (s.bd b).shapes → (s.sh x).body = b
  attN : ∀ b, (s.bd b).shapes.Nodup
  own : ∀ x, (s.sh x).space = true → x ∈ (s.bd (s.sh x).body).shapes
  full : ∀ b x, off s T b → x ∈ (s.bd b).shapes → (s.sh x).space = true
  home : ∀ x, (s.sh x).space = true → (s.bd (s.sh x).body).kind ≠ .static → (s.bd (s.sh x).body).space = true

/-- If one of two linked bodies is asleep, the other is static or asleep in the same group. -/
def Together (s : St K) (T : List Nat) (a b : Nat) : Prop :=
  ∀ g, a ∉ T → (s.bd a).root = some g → (s.bd b).kind = .static ∨ (b ∉ T ∧ (s.bd b).root = some g)

structure JointsI (s : St K) (T : List Nat) : Prop where
  nodup : s.cons.Nodup
  mem : ∀ c, c ∈ s.cons ↔ ((s.cn c).space = true ∧ ¬ off s T (owner s (s.cn c).a (s.cn c).b))
  list : ∀ b c, c ∈ (s.bd b).cons ↔ ((s.cn c).space = true ∧ ((s.cn c).a = b ∨ (s.cn c).b = b))
  listN : ∀ b, (s.bd b).cons.Nodup
  ne : ∀ c, (s.cn c).space = true → (s.cn c).a ≠ (s.cn c).b
  home : ∀ c, (s.cn c).space = true → ((s.bd (s.cn c).a).kind ≠ .static → (s.bd (s.cn c).a).space = true) ∧
    ((s.bd (s.cn c).b).kind ≠ .static → (s.bd (s.cn c).b).space = true)
  group : ∀ c, (s.cn c).space = true → Together s T (s.cn c).a (s.cn c).b ∧ Together s T (s.cn c).b (s.cn c).a

/-- The collision is in the lists of its bodies. -/
def thr (s : St K) (r : Nat) : Prop := r ∈ (s.bd (s.ar r).a).arbs

/-- The collision exists. -/
def live (s : St K) (r : Nat) : Prop := r ∈ s.cached ∨ thr s r

structure ArbsI (s : St K) (T P : List Nat) : Prop where
  arbN : s.arbiters.Nodup
  cachedN : s.cached.Nodup
  pendN : P.Nodup
  arb : ∀ r, r ∈ s.arbiters ↔ (r ∈ P ∨ (thr s r ∧ ¬ off s T (owner s (s.ar r).a (s.ar r).b)))
  list : ∀ b r, r ∈ (s.bd b).arbs ↔ (thr s r ∧ ((s.ar r).a = b ∨ (s.ar r).b = b))
  listN : ∀ b, (s.bd b).arbs.Nodup
  pend : ∀ r ∈ P, r ∈ s.cached ∧ ¬ thr s r
  cach : ∀ r, thr s r → (r ∈ s.cached ↔ ¬ off s T (owner s (s.ar r).a (s.ar r).b))
  ne : ∀ r, live s r → (s.ar r).a ≠ (s.ar r).b
  shp : ∀ r, live s r → (s.ar r).a = (s.sh (s.ar r).sa).body ∧ (s.ar r).b = (s.sh (s.ar r).sb).body ∧
    (s.sh (s.ar r).sa).space = true ∧ (s.sh (s.ar r).sb).space = true
  uniq : ∀ r r', live s r → live s r' → (s.ar r).isPair (s.ar r').sa (s.ar r').sb = true → r = r'
  group : ∀ r, thr s r → Together s T (s.ar r).a (s.ar r).b ∧ Together s T (s.ar r).b (s.ar r).a
  ids : ∀ r, live s r → r < s.fresh ∧ r ∉ s.pool

structure Inv (s : St K) (sl T P : List Nat) : Prop where
  groups : Groups s sl T
  blists : BLists s T
  shapes : ShapesI s T
  joints : JointsI s T
  arbs : ArbsI s T P

/-! ### Frames: changes that do not matter to parts of the invariant -/

/-- Equal except for the idle times. -/
def SameB (s s' : St K) : Prop := ∀ b, (s'.bd b).kind = (s.bd b).kind ∧ (s'.bd b).root = (s.bd b).root ∧
  (s'.bd b).next = (s.bd b).next ∧ (s'.bd b).shapes = (s.bd b).shapes ∧ (s'.bd b).arbs = (s.bd b).arbs ∧
  (s'.bd b).cons = (s.bd b).cons ∧ (s'.bd b).space = (s.bd b).space

/-- Only idle times differ. -/
structure SameI (s s' : St K) : Prop where
  bd : SameB s s'
  rest : s' = { s with bd := s'.bd }

theorem SameI.refl (s : St K) : SameI s s := ⟨fun _ => ⟨rfl, rfl, rfl, rfl, rfl, rfl, rfl⟩, rfl⟩

theorem SameI.trans {s t u : St K} (h : SameI s t) (h' : SameI t u) : SameI s u := by
  refine ⟨fun b => ?_, ?_⟩
  · obtain ⟨a1, a2, a3, a4, a5, a6, a7⟩ := h.bd b
    obtain ⟨b1, b2, b3, b4, b5, b6, b7⟩ := h'.bd b
    exact ⟨b1.trans a1, b2.trans a2, b3.trans a3, b4.trans a4, b5.trans a5, b6.trans a6, b7.trans a7⟩
  · rw [h'.rest, h.rest]

theorem SameI.setB_idle (s : St K) (b : Nat) (f : K → K) : SameI s (s.setB b fun d => { d with idle := f d.idle }) := by
  refine ⟨fun c => ?_, rfl⟩
  simp only [St.setB]
  split
  · rename_i h; subst h; exact ⟨rfl, rfl, rfl, rfl, rfl, rfl, rfl⟩
  · exact ⟨rfl, rfl, rfl, rfl, rfl, rfl, rfl⟩

theorem Path.congr {s s' : St K} (h : ∀ b, (s'.bd b).next = (s.bd b).next) : ∀ (o : Option Nat) (l : List Nat), Path s o l → Path s' o l
  | none, [], _ => trivial
  | some b, c :: l, ⟨e, p⟩ => ⟨e, by rw [h b]; exact Path.congr h _ l p⟩
  | none, _ :: _, p => p.elim
  | some _, [], p => p.elim

theorem Path.congr_mem {s s' : St K} : ∀ (o : Option Nat) (l : List Nat), (∀ b ∈ l, (s'.bd b).next = (s.bd b).next) → Path s o l → Path s' o l
  | none, [], _, _ => trivial
  | some b, c :: l, h, ⟨e, p⟩ => by
    subst e
    exact ⟨rfl, by rw [h b (by simp)]; exact Path.congr_mem _ l (fun x hx => h x (by simp [hx])) p⟩
  | none, _ :: _, _, p => p.elim
  | some _, [], _, p => p.elim

theorem Path.unique {s : St K} : ∀ (o : Option Nat) (l l' : List Nat), Path s o l → Path s o l' → l = l'
  | none, [], [], _, _ => rfl
  | none, [], _ :: _, _, h => h.elim
  | none, _ :: _, _, h, _ => h.elim
  | some _, [], _, h, _ => h.elim
  | some _, _ :: _, [], _, h => h.elim
  | some b, c :: l, c' :: l', ⟨e, p⟩, ⟨e', p'⟩ => by
    subst e; subst e'
    rw [Path.unique _ l l' p p']

/-- The part of the state that the invariant reads, apart from idle times. -/
structure SameAll (s s' : St K) : Prop where
  bd : SameB s s'
  sh : s'.sh = s.sh
  cn : s'.cn = s.cn
  ar : ∀ r, (s'.ar r).sa = (s.ar r).sa ∧ (s'.ar r).sb = (s.ar r).sb ∧ (s'.ar r).a = (s.ar r).a ∧ (s'.ar r).b = (s.ar r).b
  nb : s'.nb = s.nb
  dyn : s'.dyn = s.dyn
  stat : s'.stat = s.stat
  dynIdx : s'.dynIdx = s.dynIdx
  statIdx : s'.statIdx = s.statIdx
  cons : s'.cons = s.cons
  arbiters : s'.arbiters = s.arbiters
  cached : s'.cached = s.cached
  fresh : s'.fresh = s.fresh
  pool : s'.pool = s.pool

theorem SameI.all {s s' : St K} (h : SameI s s') : SameAll s s' := by
  have e := h.rest
  constructor
  · exact h.bd
  all_goals (rw [e])
  intro r; exact ⟨rfl, rfl, rfl, rfl⟩

theorem off_congr {s s' : St K} {T : List Nat} (h : ∀ b, (s'.bd b).root = (s.bd b).root) (b : Nat) : off s' T b ↔ off s T b := by
  simp only [off, h b]

theorem owner_congr {s s' : St K} (h : ∀ b, (s'.bd b).kind = (s.bd b).kind) (a b : Nat) : owner s' a b = owner s a b := by
  simp only [owner, h a]

theorem Together.congr {s s' : St K} {T : List Nat} (h : ∀ b, (s'.bd b).root = (s.bd b).root) (k : ∀ b, (s'.bd b).kind = (s.bd b).kind)
    {a b : Nat} (g : Together s T a b) : Together s' T a b := by
  intro x h1 h2
  rw [h] at h2
  rw [k, h]
  exact g x h1 h2

theorem Groups.congr {s s' : St K} {sl T : List Nat} (hk : ∀ b, (s'.bd b).kind = (s.bd b).kind) (hr : ∀ b, (s'.bd b).root = (s.bd b).root)
    (hn : ∀ b, (s'.bd b).next = (s.bd b).next) (hs : ∀ b, (s'.bd b).space = (s.bd b).space) (hnb : s'.nb = s.nb)
    (G : Groups s sl T) : Groups s' sl T := by
  refine ⟨G.nodup, G.nodupT, ?_, ?_, ?_, ?_, ?_⟩
  · intro r hr'
    obtain ⟨l, h1, h2, h3⟩ := G.chain r hr'
    exact ⟨l, h1.congr hn, h2, fun b => by rw [hr b]; exact h3 b⟩
  · intro b r; rw [hr, hk, hs]; exact G.root b r
  · intro b; rw [hk, hs]; exact G.trans b
  · intro b; rw [hr, hn]; exact G.next b
  · intro b; rw [hs, hnb]; exact G.nb b

theorem BLists.congr {s s' : St K} {T : List Nat} (hk : ∀ b, (s'.bd b).kind = (s.bd b).kind) (hr : ∀ b, (s'.bd b).root = (s.bd b).root)
    (hs : ∀ b, (s'.bd b).space = (s.bd b).space) (hd : s'.dyn = s.dyn) (ht : s'.stat = s.stat)
    (B : BLists s T) : BLists s' T := by
  refine ⟨by rw [hd]; exact B.dynN, by rw [ht]; exact B.statN, ?_, ?_⟩
  · intro b; rw [hd, hs, hk, off_congr hr]; exact B.dyn b
  · intro b; rw [ht, hs, hk]; exact B.stat b

theorem frozen_congr {s s' : St K} {T : List Nat} (hk : ∀ b, (s'.bd b).kind = (s.bd b).kind) (hr : ∀ b, (s'.bd b).root = (s.bd b).root)
    (b : Nat) : frozen s' T b ↔ frozen s T b := by
  simp only [frozen, hk b, off_congr hr]

theorem ShapesI.congr {s s' : St K} {T : List Nat} (hk : ∀ b, (s'.bd b).kind = (s.bd b).kind) (hr : ∀ b, (s'.bd b).root = (s.bd b).root)
    (hs : ∀ b, (s'.bd b).space = (s.bd b).space) (hx : ∀ b, (s'.bd b).shapes = (s.bd b).shapes) (hsh : s'.sh = s.sh)
    (hd : s'.dynIdx = s.dynIdx) (ht : s'.statIdx = s.statIdx) (B : ShapesI s T) : ShapesI s' T := by
  refine ⟨by rw [hd]; exact B.dynN, by rw [ht]; exact B.statN, ?_, ?_, ?_, ?_, ?_, ?_, ?_⟩
  · intro x; rw [hd, hsh, frozen_congr hk hr]; exact B.dyn x
  · intro x; rw [ht, hsh, frozen_congr hk hr]; exact B.stat x
  · intro b x; rw [hx, hsh]; exact B.att b x
  · intro b; rw [hx]; exact B.attN b
  · intro x; rw [hsh, hx]; exact B.own x
  · intro b x; rw [off_congr hr, hx, hsh]; exact B.full b x
  · intro x; rw [hsh, hk, hs]; exact B.home x

theorem JointsI.congr {s s' : St K} {T : List Nat} (hk : ∀ b, (s'.bd b).kind = (s.bd b).kind) (hr : ∀ b, (s'.bd b).root = (s.bd b).root)
    (hs : ∀ b, (s'.bd b).space = (s.bd b).space) (hx : ∀ b, (s'.bd b).cons = (s.bd b).cons) (hcn : s'.cn = s.cn)
    (hd : s'.cons = s.cons) (B : JointsI s T) : JointsI s' T := by
  refine ⟨by rw [hd]; exact B.nodup, ?_, ?_, ?_, ?_, ?_, ?_⟩
  · intro c; rw [hd, hcn, off_congr hr, owner_congr hk]; exact B.mem c
  · intro b c; rw [hx, hcn]; exact B.list b c
  · intro b; rw [hx]; exact B.listN b
  · rw [hcn]; exact B.ne
  · intro c; rw [hcn, hk, hs, hk, hs]; exact B.home c
  · intro c; rw [hcn]; intro h; exact ⟨(B.group c h).1.congr hr hk, (B.group c h).2.congr hr hk⟩

theorem ArbsI.congr {s s' : St K} {T P : List Nat} (hk : ∀ b, (s'.bd b).kind = (s.bd b).kind) (hr : ∀ b, (s'.bd b).root = (s.bd b).root)
    (hx : ∀ b, (s'.bd b).arbs = (s.bd b).arbs) (hsh : s'.sh = s.sh)
    (har : ∀ r, (s'.ar r).sa = (s.ar r).sa ∧ (s'.ar r).sb = (s.ar r).sb ∧ (s'.ar r).a = (s.ar r).a ∧ (s'.ar r).b = (s.ar r).b)
    (hd : s'.arbiters = s.arbiters) (hc : s'.cached = s.cached) (hf : s'.fresh = s.fresh) (hp : s'.pool = s.pool)
    (B : ArbsI s T P) : ArbsI s' T P := by
  have ht : ∀ r, thr s' r ↔ thr s r := by
    intro r; simp only [thr, hx, (har r).2.2.1]
  have hl : ∀ r, live s' r ↔ live s r := by
    intro r; simp only [live, hc, ht]
  refine ⟨by rw [hd]; exact B.arbN, by rw [hc]; exact B.cachedN, B.pendN, ?_, ?_, ?_, ?_, ?_, ?_, ?_, ?_, ?_, ?_⟩
  · intro r; rw [hd, ht, off_congr hr, owner_congr hk, (har r).2.2.1, (har r).2.2.2]; exact B.arb r
  · intro b r; rw [hx, ht, (har r).2.2.1, (har r).2.2.2]; exact B.list b r
  · intro b; rw [hx]; exact B.listN b
  · intro r hrP; rw [hc, ht]; exact B.pend r hrP
  · intro r; rw [hc, ht, off_congr hr, owner_congr hk, (har r).2.2.1, (har r).2.2.2]; exact B.cach r
  · intro r; rw [hl, (har r).2.2.1, (har r).2.2.2]; exact B.ne r
  · intro r; rw [hl, (har r).1, (har r).2.1, (har r).2.2.1, (har r).2.2.2, hsh]; exact B.shp r
  · intro r r'
    simp only [Ar.isPair]
    rw [hl, hl, (har r).1, (har r).2.1, (har r').1, (har r').2.1]; exact B.uniq r r'
  · intro r; rw [ht, (har r).2.2.1, (har r).2.2.2]; intro h; exact ⟨(B.group r h).1.congr hr hk, (B.group r h).2.congr hr hk⟩
  · intro r; rw [hl, hf, hp]; exact B.ids r

theorem Inv.congr {s s' : St K} {sl T P : List Nat} (h : SameAll s s') (I : Inv s sl T P) : Inv s' sl T P :=
  have hk := fun b => (h.bd b).1
  have hr := fun b => (h.bd b).2.1
  have hn := fun b => (h.bd b).2.2.1
  have hx := fun b => (h.bd b).2.2.2.1
  have ha := fun b => (h.bd b).2.2.2.2.1
  have hc := fun b => (h.bd b).2.2.2.2.2.1
  have hs := fun b => (h.bd b).2.2.2.2.2.2
  ⟨I.groups.congr hk hr hn hs h.nb, I.blists.congr hk hr hs h.dyn h.stat, I.shapes.congr hk hr hs hx h.sh h.dynIdx h.statIdx,
   I.joints.congr hk hr hs hc h.cn h.cons, I.arbs.congr hk hr ha h.sh h.ar h.arbiters h.cached h.fresh h.pool⟩

/-! ### What the loops do -/

theorem wakeShapes_eq : ∀ (l : List Nat) (s : St K), l.Nodup → (∀ x ∈ l, x ∈ s.statIdx) →
    wakeShapes s l = some { s with statIdx := s.statIdx.diff l, dynIdx := s.dynIdx ++ l }
  | [], s, _, _ => by simp [wakeShapes]
  | x :: l, s, hn, h => by
    have hx := h x (by simp)
    have hn' := List.nodup_cons.1 hn
    simp only [wakeShapes, idxRemove, if_pos hx]
    rw [wakeShapes_eq l _ hn'.2]
    · simp [List.diff_cons]
    · intro y hy
      simp only
      exact (List.mem_erase_of_ne (by rintro rfl; exact hn'.1 hy)).2 (h y (by simp [hy]))

theorem sleepShapes_eq : ∀ (l : List Nat) (s : St K), l.Nodup → (∀ x ∈ l, x ∈ s.dynIdx) →
    sleepShapes s l = some { s with dynIdx := s.dynIdx.diff l, statIdx := s.statIdx ++ l }
  | [], s, _, _ => by simp [sleepShapes]
  | x :: l, s, hn, h => by
    have hx := h x (by simp)
    have hn' := List.nodup_cons.1 hn
    simp only [sleepShapes, idxRemove, if_pos hx]
    rw [sleepShapes_eq l _ hn'.2]
    · simp [List.diff_cons]
    · intro y hy
      simp only
      exact (List.mem_erase_of_ne (by rintro rfl; exact hn'.1 hy)).2 (h y (by simp [hy]))

/-- The collisions of a list which the body moves between the lists. -/
def ownedArbs (s : St K) (b : Nat) (l : List Nat) : List Nat :=
  l.filter fun r => decide (b = (s.ar r).a ∨ (s.bd (s.ar r).a).kind = .static)
/-- The joints of a list which the body moves between the lists. -/
def ownedCons (s : St K) (b : Nat) (l : List Nat) : List Nat :=
  l.filter fun c => decide (b = (s.cn c).a ∨ (s.bd (s.cn c).a).kind = .static)

theorem wakeCons_eq (b : Nat) : ∀ (l : List Nat) (s : St K), wakeCons s b l = { s with cons := s.cons ++ ownedCons s b l }
  | [], s => by simp [wakeCons, ownedCons]
  | c :: l, s => by
    rw [wakeCons, wakeCons_eq b l]
    by_cases h : b = (s.cn c).a ∨ (s.bd (s.cn c).a).kind = .static
    · simp only [if_pos h, ownedCons, List.filter_cons, decide_eq_true h, if_true, List.append_assoc, List.cons_append, List.nil_append]
    · simp only [if_neg h, ownedCons, List.filter_cons, decide_eq_false h, if_false, Bool.false_eq_true]

theorem sleepCons_eq (b : Nat) : ∀ (l : List Nat) (s : St K), sleepCons s b l = { s with cons := s.cons.diff (ownedCons s b l) }
  | [], s => by simp [sleepCons, ownedCons]
  | c :: l, s => by
    rw [sleepCons, sleepCons_eq b l]
    by_cases h : b = (s.cn c).a ∨ (s.bd (s.cn c).a).kind = .static
    · simp only [if_pos h, ownedCons, List.filter_cons, decide_eq_true h, if_true, List.diff_cons]
    · simp only [if_neg h, ownedCons, List.filter_cons, decide_eq_false h, if_false, Bool.false_eq_true]

theorem wakeArbs_eq (b : Nat) : ∀ (l : List Nat) (s : St K), l.Nodup →
    (∀ r ∈ ownedArbs s b l, s.lookup (s.ar r).sa (s.ar r).sb = none) →
    (∀ r ∈ ownedArbs s b l, ∀ q ∈ ownedArbs s b l, (s.ar r).isPair (s.ar q).sa (s.ar q).sb = true → r = q) →
    wakeArbs s b l = { s with
      arbiters := s.arbiters ++ ownedArbs s b l
      cached := (ownedArbs s b l).reverse ++ s.cached
      ar := fun x => if x ∈ ownedArbs s b l then { s.ar x with stamp := s.stamp } else s.ar x }
  | [], s, _, _, _ => by simp [wakeArbs, ownedArbs]
  | r :: l, s, hn, h1, h2 => by
    have hn' := List.nodup_cons.1 hn
    rw [wakeArbs]
    by_cases h : b = (s.ar r).a ∨ (s.bd (s.ar r).a).kind = .static
    · have ho : ownedArbs s b (r :: l) = r :: ownedArbs s b l := by
        simp only [ownedArbs, List.filter_cons, decide_eq_true h, if_true]
      have hr := h1 r (by rw [ho]; simp)
      have hrl : r ∉ ownedArbs s b l := fun h => hn'.1 (List.mem_of_mem_filter h)
      rw [if_pos h]
      have hst : restoreArb s r = { s with
          cached := r :: s.cached
          ar := fun x => if x = r then { s.ar r with stamp := s.stamp } else s.ar x
          arbiters := s.arbiters ++ [r] } := by
        simp only [restoreArb, hr, St.setA]
      have hfield : ∀ q, (((restoreArb s r).ar q).sa = (s.ar q).sa) ∧ (((restoreArb s r).ar q).sb = (s.ar q).sb) ∧ (((restoreArb s r).ar q).a = (s.ar q).a) := by
        intro q; rw [hst]; simp only; split
        · rename_i hq; subst hq; exact ⟨rfl, rfl, rfl⟩
        · exact ⟨rfl, rfl, rfl⟩
      have hbd : (restoreArb s r).bd = s.bd := by rw [hst]
      have ho' : ownedArbs (restoreArb s r) b l = ownedArbs s b l := by
        simp only [ownedArbs, hbd, (hfield _).2.2]
      rw [wakeArbs_eq b l (restoreArb s r) hn'.2, ho', ho, hst]
      · simp only [List.append_assoc, List.cons_append, List.nil_append, List.reverse_cons]
        congr 1
        funext x
        by_cases hx : x = r
        · subst hx; simp [hrl]
        · simp [hx]
      · intro q hq
        rw [ho'] at hq
        rw [(hfield q).1, (hfield q).2.1]
        have hlq := h1 q (by rw [ho]; simp [hq])
        unfold St.lookup at hlq ⊢
        rw [List.find?_eq_none] at hlq ⊢
        intro x hx hp
        have hxp : (s.ar x).isPair (s.ar q).sa (s.ar q).sb = true := by
          simp only [Ar.isPair, (hfield x).1, (hfield x).2.1] at hp ⊢; exact hp
        rw [hst] at hx
        rcases List.mem_cons.1 hx with rfl | hx
        · exact hrl ((h2 x (by rw [ho]; simp) q (by rw [ho]; simp [hq]) hxp) ▸ hq)
        · exact hlq x hx hxp
      · intro q hq q' hq' hp
        rw [ho'] at hq hq'
        refine h2 q (by rw [ho]; simp [hq]) q' (by rw [ho]; simp [hq']) ?_
        simp only [Ar.isPair, (hfield _).1, (hfield _).2.1] at hp ⊢; exact hp
    · have ho : ownedArbs s b (r :: l) = ownedArbs s b l := by
        simp only [ownedArbs, List.filter_cons, decide_eq_false h, if_false, Bool.false_eq_true]
      rw [if_neg h, ho]
      rw [ho] at h1 h2
      exact wakeArbs_eq b l s hn'.2 h1 h2

theorem swapRemove_perm {l : List Nat} {x : Nat} (h : x ∈ l) : (swapRemove l x).Perm (l.erase x) := by
  have hne : l ≠ [] := by rintro rfl; simp at h
  have hi : l.idxOf? x = some (l.idxOf x) := by
    rw [List.idxOf?_eq_some_iff]
    refine ⟨List.idxOf_lt_length_of_mem h, List.getElem_idxOf _, ?_⟩
    intro j hj
    have := List.not_of_lt_findIdx (p := fun y => y == x) (xs := l) (i := j) (by simpa [List.idxOf] using hj)
    simpa using this
  have hl : l.getLast? = some (l.getLast hne) := List.getLast?_eq_some_getLast hne
  unfold swapRemove
  rw [hi, hl]
  simp only
  have hlen := List.idxOf_lt_length_of_mem h
  -- split at the place of `x`
  have hsplit : l = l.take (l.idxOf x) ++ x :: l.drop (l.idxOf x + 1) := by
    conv_lhs => rw [← List.take_append_drop (l.idxOf x) l]
    rw [List.drop_eq_getElem_cons hlen, List.getElem_idxOf]
  have hnot : x ∉ l.take (l.idxOf x) := by
    intro hm
    obtain ⟨j, hj, e⟩ := List.getElem_of_mem hm
    rw [List.length_take] at hj
    have := List.not_of_lt_findIdx (p := fun y => y == x) (xs := l) (i := j) (by simp only [List.idxOf] at hj; omega)
    rw [List.getElem_take] at e
    simp [e] at this
  have hset : l.set (l.idxOf x) (l.getLast hne) = l.take (l.idxOf x) ++ l.getLast hne :: l.drop (l.idxOf x + 1) := by
    rw [List.set_eq_take_append_cons_drop, if_pos hlen]
  rw [hset]
  have her : l.erase x = l.take (l.idxOf x) ++ l.drop (l.idxOf x + 1) := by
    conv_lhs => rw [hsplit]
    rw [List.erase_append_right _ hnot, List.erase_cons_head]
  rw [her]
  rcases List.eq_nil_or_concat (l.drop (l.idxOf x + 1)) with hd | ⟨d, y, hd⟩
  · rw [hd]; simp
  · rw [hd]
    have hy : l.getLast hne = y := by
      have : l = (l.take (l.idxOf x) ++ x :: d) ++ [y] := by
        conv_lhs => rw [hsplit, hd]
        simp
      have h2 : l.getLast? = some y := by rw [this]; exact List.getLast?_concat
      rw [hl] at h2; simpa using h2
    rw [hy]
    have e2 : l.take (l.idxOf x) ++ y :: d.concat y = (l.take (l.idxOf x) ++ y :: d) ++ [y] := by simp
    rw [List.concat_eq_append] at *
    rw [show l.take (l.idxOf x) ++ y :: (d ++ [y]) = (l.take (l.idxOf x) ++ y :: d) ++ [y] by simp, List.dropLast_concat]
    refine List.Perm.append_left _ ?_
    exact (List.perm_append_singleton y d).symm

/-- A collision in a cache of distinct pairs is found under its own pair. -/
theorem lookup_self {s : St K} {r : Nat} (h : r ∈ s.cached)
    (u : ∀ q ∈ s.cached, (s.ar q).isPair (s.ar r).sa (s.ar r).sb = true → q = r) :
    s.lookup (s.ar r).sa (s.ar r).sb = some r := by
  unfold St.lookup
  cases hf : s.cached.find? (fun q => (s.ar q).isPair (s.ar r).sa (s.ar r).sb) with
  | none =>
    rw [List.find?_eq_none] at hf
    have := hf r h
    simp [Ar.isPair] at this
  | some q =>
    have h1 := List.mem_of_find?_eq_some hf
    have h2 := List.find?_some hf
    rw [u q h1 h2]

theorem sleepArbs_eq (b : Nat) : ∀ (l : List Nat) (s : St K), l.Nodup →
    (∀ r ∈ ownedArbs s b l, r ∈ s.cached ∧ r ∈ s.arbiters) → s.cached.Nodup → s.arbiters.Nodup →
    (∀ r ∈ s.cached, ∀ q ∈ s.cached, (s.ar q).isPair (s.ar r).sa (s.ar r).sb = true → q = r) →
    ∃ arb, sleepArbs s b l = some { s with arbiters := arb, cached := s.cached.diff (ownedArbs s b l) } ∧
      arb.Perm (s.arbiters.diff (ownedArbs s b l))
  | [], s, _, _, _, _, _ => ⟨s.arbiters, by simp [sleepArbs, ownedArbs], by simp [ownedArbs]⟩
  | r :: l, s, hn, h1, hc, ha, u => by
    have hn' := List.nodup_cons.1 hn
    rw [sleepArbs]
    by_cases h : b = (s.ar r).a ∨ (s.bd (s.ar r).a).kind = .static
    · have ho : ownedArbs s b (r :: l) = r :: ownedArbs s b l := by
        simp only [ownedArbs, List.filter_cons, decide_eq_true h, if_true]
      have hr := h1 r (by rw [ho]; simp)
      have hrl : r ∉ ownedArbs s b l := fun h => hn'.1 (List.mem_of_mem_filter h)
      have hun : uncache s r = some { s with cached := s.cached.erase r, arbiters := swapRemove s.arbiters r } := by
        unfold uncache
        rw [lookup_self hr.1 (fun q hq hp => u r hr.1 q hq hp)]
        simp only [if_pos hr.2]
      rw [if_pos h, hun]
      simp only
      have hperm := swapRemove_perm hr.2
      obtain ⟨arb, e1, e2⟩ := sleepArbs_eq b l { s with cached := s.cached.erase r, arbiters := swapRemove s.arbiters r } hn'.2
        (by
          intro q hq
          have hq' : q ∈ ownedArbs s b l := hq
          have hqr : q ≠ r := by rintro rfl; exact hrl hq'
          have := h1 q (by rw [ho]; simp [hq'])
          simp only
          refine ⟨(List.mem_erase_of_ne hqr).2 this.1, ?_⟩
          rw [hperm.mem_iff]
          exact (List.mem_erase_of_ne hqr).2 this.2)
        (hc.erase r) (hperm.nodup_iff.2 (ha.erase r))
        (by
          intro q hq q' hq' hp
          exact u q (List.mem_of_mem_erase hq) q' (List.mem_of_mem_erase hq') hp)
      refine ⟨arb, ?_, ?_⟩
      · rw [e1, ho, List.diff_cons]; rfl
      · rw [ho, List.diff_cons]
        exact e2.trans (List.Perm.diff hperm (List.Perm.refl _))
    · have ho : ownedArbs s b (r :: l) = ownedArbs s b l := by
        simp only [ownedArbs, List.filter_cons, decide_eq_false h, if_false, Bool.false_eq_true]
      rw [if_neg h, ho]
      rw [ho] at h1
      exact sleepArbs_eq b l s hn'.2 h1 hc ha u

end Sp
end Cm
