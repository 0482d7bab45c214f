import Verif.Proofs.SpaceSleep
import Mathlib.Logic.Relation

/-! # `FloodFillComponent` marks exactly a connected component -/
set_option linter.unusedSectionVars false
set_option linter.unusedSimpArgs false
set_option linter.unusedVariables false
set_option linter.unusedTactic false
set_option linter.unreachableTactic false

namespace Cm
namespace Sp
variable {K : Type}

/-- The two are `x` and `y` in some order. -/
def Ends (x y b c : Nat) : Prop := (x = b ∧ y = c) ∨ (x = c ∧ y = b)

/-- Two bodies are joined by a collision in their lists or by a joint. -/
def Adj (s : St K) (b c : Nat) : Prop :=
  (∃ r, thr s r ∧ Ends (s.ar r).a (s.ar r).b b c) ∨ (∃ j, (s.cn j).space = true ∧ Ends (s.cn j).a (s.cn j).b b c)

/-- Two dynamic bodies are joined. -/
def Link (s : St K) (b c : Nat) : Prop := (s.bd b).kind = .dynamic ∧ (s.bd c).kind = .dynamic ∧ Adj s b c

/-- Two bodies are joined through dynamic bodies. -/
def Conn (s : St K) : Nat → Nat → Prop := Relation.ReflTransGen (Link s)

theorem Adj.symm {s : St K} {b c : Nat} (h : Adj s b c) : Adj s c b := by
  rcases h with ⟨r, h1, h2⟩ | ⟨r, h1, h2⟩
  · exact Or.inl ⟨r, h1, h2.symm⟩
  · exact Or.inr ⟨r, h1, h2.symm⟩

theorem Link.symm {s : St K} {b c : Nat} (h : Link s b c) : Link s c b := ⟨h.2.1, h.1, h.2.2.symm⟩

theorem Conn.symm {s : St K} {b c : Nat} (h : Conn s b c) : Conn s c b := by
  induction h with
  | refl => exact Relation.ReflTransGen.refl
  | tail _ h2 ih => exact Relation.ReflTransGen.head h2.symm ih

/-- The bodies looked at from a body: space.go:1180-1194. -/
def nbrs (s : St K) (b : Nat) : List Nat :=
  (s.bd b).arbs.map (fun r => if b = (s.ar r).a then (s.ar r).b else (s.ar r).a) ++
    (s.bd b).cons.map (fun c => if b = (s.cn c).a then (s.cn c).b else (s.cn c).a)

theorem ends_iff {x y b c : Nat} (hne : x ≠ y) : ((x = b ∨ y = b) ∧ (if b = x then y else x) = c) ↔ Ends x y b c := by
  unfold Ends
  by_cases h : b = x
  · subst h
    simp only [true_or, if_true, true_and]
    constructor
    · intro h; exact Or.inl h
    · rintro (h | ⟨h1, h2⟩)
      · exact h
      · exact absurd h2.symm hne
  · rw [if_neg h]
    constructor
    · rintro ⟨h1 | h1, h2⟩
      · exact absurd h1.symm h
      · exact Or.inr ⟨h2, h1⟩
    · rintro (⟨h1, h2⟩ | ⟨h1, h2⟩)
      · exact absurd h1.symm h
      · exact ⟨Or.inr h2, h1⟩

theorem mem_nbrs {s : St K} {sl T P : List Nat} (I : Inv s sl T P) (b c : Nat) : c ∈ nbrs s b ↔ Adj s b c := by
  simp only [nbrs, List.mem_append, List.mem_map, Adj]
  constructor
  · rintro (⟨r, h1, h2⟩ | ⟨j, h1, h2⟩)
    · have h3 := (I.arbs.list b r).1 h1
      exact Or.inl ⟨r, h3.1, (ends_iff (I.arbs.ne r (Or.inr h3.1))).1 ⟨h3.2, h2⟩⟩
    · have h3 := (I.joints.list b j).1 h1
      exact Or.inr ⟨j, h3.1, (ends_iff (I.joints.ne j h3.1)).1 ⟨h3.2, h2⟩⟩
  · rintro (⟨r, h1, h2⟩ | ⟨j, h1, h2⟩)
    · have h3 := (ends_iff (I.arbs.ne r (Or.inr h1))).2 h2
      exact Or.inl ⟨r, (I.arbs.list b r).2 ⟨h1, h3.1⟩, h3.2⟩
    · have h3 := (ends_iff (I.joints.ne j h1)).2 h2
      exact Or.inr ⟨j, (I.joints.list b j).2 ⟨h1, h3.1⟩, h3.2⟩

/-- Only the links differ. -/
structure Relinked (s0 s : St K) : Prop where
  rest : s = { s0 with bd := s.bd }
  bd : ∀ c, (s.bd c).kind = (s0.bd c).kind ∧ (s.bd c).idle = (s0.bd c).idle ∧ (s.bd c).shapes = (s0.bd c).shapes ∧
    (s.bd c).arbs = (s0.bd c).arbs ∧ (s.bd c).cons = (s0.bd c).cons ∧ (s.bd c).space = (s0.bd c).space

theorem Relinked.refl (s : St K) : Relinked s s := ⟨rfl, fun _ => ⟨rfl, rfl, rfl, rfl, rfl, rfl⟩⟩

theorem Relinked.trans {s t u : St K} (h : Relinked s t) (k : Relinked t u) : Relinked s u := by
  refine ⟨by rw [k.rest, h.rest], fun c => ?_⟩
  obtain ⟨a1, a2, a3, a4, a5, a6⟩ := h.bd c
  obtain ⟨b1, b2, b3, b4, b5, b6⟩ := k.bd c
  exact ⟨b1.trans a1, b2.trans a2, b3.trans a3, b4.trans a4, b5.trans a5, b6.trans a6⟩

theorem Relinked.setB (s : St K) (b : Nat) (r n : Bd K → Option Nat) : Relinked s (s.setB b fun d => { d with root := r d, next := n d }) := by
  refine ⟨rfl, fun c => ?_⟩
  simp only [St.setB]
  split
  · rename_i h; subst h; exact ⟨rfl, rfl, rfl, rfl, rfl, rfl⟩
  · exact ⟨rfl, rfl, rfl, rfl, rfl, rfl⟩

theorem Relinked.thr {s0 s : St K} (h : Relinked s0 s) (r : Nat) : thr s r ↔ thr s0 r := by
  simp only [Sp.thr, (h.bd _).2.2.2.1]
  rw [h.rest]

theorem Relinked.nbrs {s0 s : St K} (h : Relinked s0 s) (b : Nat) : nbrs s b = nbrs s0 b := by
  simp only [Sp.nbrs, (h.bd b).2.2.2.1, (h.bd b).2.2.2.2.1]
  rw [h.rest]

theorem Relinked.adj {s0 s : St K} (h : Relinked s0 s) (b c : Nat) : Adj s b c ↔ Adj s0 b c := by
  simp only [Adj, h.thr]
  rw [h.rest]

theorem Relinked.link {s0 s : St K} (h : Relinked s0 s) (b c : Nat) : Link s b c ↔ Link s0 b c := by
  simp only [Link, h.adj, (h.bd _).1]

theorem Relinked.conn {s0 s : St K} (h : Relinked s0 s) (b c : Nat) : Conn s b c ↔ Conn s0 b c := by
  have : Link s = Link s0 := by funext x y; exact propext (h.link x y)
  simp only [Conn, this]

section
variable [Zero K]

/-- In the middle of a flood fill from `r`: the marked bodies are `r :: l`, in the order of the links. -/
structure Flood (s0 s : St K) (r : Nat) (l : List Nat) : Prop where
  rel : Relinked s0 s
  old : ∀ c, c ∉ r :: l → (s.bd c).root = (s0.bd c).root ∧ (s.bd c).next = (s0.bd c).next
  mark : ∀ c ∈ r :: l, (s.bd c).root = some r ∧ (s0.bd c).kind = .dynamic ∧ Conn s0 r c
  path : Path s (some r) (r :: l)
  nodup : (r :: l).Nodup

theorem componentAdd_flood {s0 s : St K} {r : Nat} {l : List Nat} (F : Flood s0 s r l) {b : Nat} (hb : b ∉ r :: l)
    (hk : (s0.bd b).kind = .dynamic) (hc : Conn s0 r b) : Flood s0 (componentAdd s r b) r (b :: l) := by
  have hbr : b ≠ r := by rintro rfl; simp at hb
  have hbl : b ∉ l := fun h => hb (by simp [h])
  have hrl : r ∉ l := (List.nodup_cons.1 F.nodup).1
  have hbd : ∀ c, (componentAdd s r b).bd c =
      if c = r then { s.bd r with next := some b } else if c = b then { s.bd b with root := some r, next := (s.bd r).next } else s.bd c := by
    intro c
    simp only [componentAdd, if_pos hbr, St.setB]
    by_cases h1 : c = r
    · subst h1; simp [Ne.symm hbr]
    · by_cases h2 : c = b
      · subst h2; simp [hbr, Ne.symm hbr]
      · simp [h1, h2]
  refine ⟨?_, ?_, ?_, ?_, ?_⟩
  · refine F.rel.trans ⟨?_, fun c => ?_⟩
    · simp only [componentAdd, if_pos hbr, St.setB]
    · rw [hbd]
      split
      · rename_i h; subst h; exact ⟨rfl, rfl, rfl, rfl, rfl, rfl⟩
      · split
        · rename_i h; subst h; exact ⟨rfl, rfl, rfl, rfl, rfl, rfl⟩
        · exact ⟨rfl, rfl, rfl, rfl, rfl, rfl⟩
  · intro c hc
    simp only [List.mem_cons, not_or] at hc
    rw [hbd, if_neg hc.1, if_neg hc.2.1]
    exact F.old c (by simp [hc.1, hc.2.2])
  · intro c hcm
    by_cases h1 : c = r
    · rw [hbd, if_pos h1]; subst h1; exact F.mark c (by simp)
    · by_cases h2 : c = b
      · rw [hbd, if_neg h1, if_pos h2]; subst h2; exact ⟨rfl, hk, hc⟩
      · rw [hbd, if_neg h1, if_neg h2]
        exact F.mark c (by simpa [h1, h2] using hcm)
  · obtain ⟨_, hp⟩ := F.path
    refine ⟨rfl, ?_⟩
    rw [hbd, if_pos rfl]
    refine ⟨rfl, ?_⟩
    rw [hbd, if_neg hbr, if_pos rfl]
    refine Path.congr_mem _ _ ?_ hp
    intro c hcl
    rw [hbd, if_neg (by rintro rfl; exact hrl hcl), if_neg (by rintro rfl; exact hbl hcl)]
  · rw [List.nodup_cons, List.nodup_cons]
    refine ⟨?_, hbl, (List.nodup_cons.1 F.nodup).2⟩
    simp [Ne.symm hbr, hrl]

/-- What a flood fill or part of it achieves: the marks grow, and what is newly marked has all its neighbours marked. -/
def Filled (s0 : St K) (r : Nat) (l l' : List Nat) : Prop :=
  (∀ c ∈ r :: l, c ∈ r :: l') ∧ ∀ c ∈ r :: l', c ∉ r :: l → ∀ d, Link s0 c d → d ∈ r :: l'

theorem Filled.trans {s0 : St K} {r : Nat} {l l' l'' : List Nat} (h : Filled s0 r l l') (k : Filled s0 r l' l'') : Filled s0 r l l'' := by
  refine ⟨fun c hc => k.1 c (h.1 c hc), fun c hc hn d hd => ?_⟩
  by_cases h' : c ∈ r :: l'
  · exact k.1 d (h.2 c h' hn d hd)
  · exact k.2 c hc h' d hd

theorem foldlM_flood {s0 : St K} {r : Nat} (step : St K → Nat → Option (St K)) (m : Nat)
    (hstep : ∀ s l b, Flood s0 s r l → m ≤ l.length → ((s0.bd b).kind = .dynamic → Conn s0 r b) →
      ∃ s' l', step s b = some s' ∧ Flood s0 s' r l' ∧ Filled s0 r l l' ∧ l.length ≤ l'.length ∧ ((s0.bd b).kind = .dynamic → b ∈ r :: l')) :
    ∀ (ds : List Nat) (s : St K) (l : List Nat), Flood s0 s r l → m ≤ l.length → (∀ d ∈ ds, (s0.bd d).kind = .dynamic → Conn s0 r d) →
      ∃ s' l', ds.foldlM step s = some s' ∧ Flood s0 s' r l' ∧ Filled s0 r l l' ∧ l.length ≤ l'.length ∧
        ∀ d ∈ ds, (s0.bd d).kind = .dynamic → d ∈ r :: l'
  | [], s, l, F, _, _ => ⟨s, l, rfl, F, ⟨fun _ h => h, fun _ h h' => absurd h h'⟩, le_rfl, by simp⟩
  | d :: ds, s, l, F, hm, h => by
    obtain ⟨s1, l1, e1, F1, c1, n1, k1⟩ := hstep s l d F hm (h d (by simp))
    obtain ⟨s2, l2, e2, F2, c2, n2, k2⟩ := foldlM_flood step m hstep ds s1 l1 F1 (by omega) (fun x hx => h x (by simp [hx]))
    refine ⟨s2, l2, ?_, F2, c1.trans c2, by omega, ?_⟩
    · rw [List.foldlM_cons, e1]; exact e2
    · intro x hx hk
      rcases List.mem_cons.1 hx with rfl | hx
      · exact c2.1 _ (k1 hk)
      · exact k2 x hx hk

theorem floodFill_flood {s0 : St K} {r : Nat} (hn : ∀ b c, c ∈ nbrs s0 b ↔ Adj s0 b c)
    (hnone : ∀ c, Conn s0 r c → (s0.bd c).kind = .dynamic → (s0.bd c).root = none) (hnb : ∀ c, Conn s0 r c → (s0.bd c).kind = .dynamic → c < s0.nb) :
    ∀ (n : Nat) (s : St K) (l : List Nat) (b : Nat), Flood s0 s r l → s0.nb < n + l.length + 1 → ((s0.bd b).kind = .dynamic → Conn s0 r b) →
      ∃ s' l', floodFill n s r b = some s' ∧ Flood s0 s' r l' ∧ Filled s0 r l l' ∧ l.length ≤ l'.length ∧
        ((s0.bd b).kind = .dynamic → b ∈ r :: l')
  | 0, s, l, b, F, hm, _ => by
    exfalso
    have hsub : (r :: l) ⊆ List.range s0.nb := by
      intro c hc
      rw [List.mem_range]; exact hnb c (F.mark c hc).2.2 (F.mark c hc).2.1
    have := (List.subperm_of_subset F.nodup hsub).length_le
    simp at this; omega
  | n + 1, s, l, b, F, hm, hc => by
    have hkind : (s.bd b).kind = (s0.bd b).kind := (F.rel.bd b).1
    unfold floodFill
    by_cases hk : (s0.bd b).kind = .dynamic
    swap
    · rw [if_pos (by rw [hkind]; exact hk)]
      exact ⟨s, l, rfl, F, ⟨fun _ h => h, fun _ h h' => absurd h h'⟩, le_rfl, fun h => absurd h hk⟩
    rw [if_neg (by rw [hkind]; simp [hk])]
    by_cases hb : b ∈ r :: l
    · rw [(F.mark b hb).1]
      simp only [ne_eq, not_true, if_false]
      exact ⟨s, l, rfl, F, ⟨fun _ h => h, fun _ h h' => absurd h h'⟩, le_rfl, fun _ => hb⟩
    · rw [(F.old b hb).1, hnone b (hc hk) hk]
      simp only
      have F1 := componentAdd_flood F hb hk (hc hk)
      have hnl : nbrs (componentAdd s r b) b = nbrs s0 b := F1.rel.nbrs b
      obtain ⟨s2, l2, e2, F2, c2, n2, k2⟩ := foldlM_flood (fun t o => floodFill n t r o) (l.length + 1)
        (fun s l b F hm' hc => floodFill_flood hn hnone hnb n s l b F (by omega) hc) (nbrs s0 b) (componentAdd s r b) (b :: l) F1 (by simp)
        (by
          intro d hd hkd
          exact (hc hk).tail ⟨hk, hkd, (hn b d).1 hd⟩)
      refine ⟨s2, l2, ?_, F2, ⟨fun c h => c2.1 c ?_, ?_⟩, ?_, fun _ => c2.1 b (by simp)⟩
      · rw [← hnl] at e2; exact e2
      · rcases List.mem_cons.1 h with h | h <;> simp [h]
      · intro c hcl hcn d hd
        by_cases hcb : c = b
        · subst hcb
          exact k2 d ((hn c d).2 hd.2.2) hd.2.1
        · refine c2.2 c hcl ?_ d hd
          intro h; apply hcn
          simp only [List.mem_cons] at h ⊢
          rcases h with h | h | h
          · exact Or.inl h
          · exact absurd h hcb
          · exact Or.inr h
      · simp only [List.length_cons] at n2; omega

/-- The flood fill from a body that is not marked marks exactly its connected component. -/
theorem floodFill_root {s : St K} {r : Nat} (hn : ∀ b c, c ∈ nbrs s b ↔ Adj s b c) (hk : (s.bd r).kind = .dynamic)
    (hnone : ∀ c, Conn s r c → (s.bd c).kind = .dynamic → (s.bd c).root = none) (hnext : (s.bd r).next = none)
    (hnb : ∀ c, Conn s r c → (s.bd c).kind = .dynamic → c < s.nb) :
    ∃ s' l, floodFill (s.nb + 1) s r r = some s' ∧ Flood s s' r l ∧ (∀ c, c ∈ r :: l ↔ Conn s r c) ∧ (r :: l).length ≤ s.nb := by
  have hr : (s.bd r).root = none := hnone r Relation.ReflTransGen.refl hk
  have hs1 : componentAdd s r r = s.setB r fun d => { d with root := some r } := by simp [componentAdd]
  have F1 : Flood s (componentAdd s r r) r [] := by
    rw [hs1]
    refine ⟨Relinked.setB s r (fun _ => some r) (fun d => d.next), ?_, ?_, ?_, by simp⟩
    · intro c hc
      simp only [List.mem_singleton] at hc
      simp [St.setB, hc]
    · intro c hc
      simp only [List.mem_singleton] at hc
      subst hc
      exact ⟨by simp [St.setB], hk, Relation.ReflTransGen.refl⟩
    · refine ⟨rfl, ?_⟩
      simp [St.setB, hnext, Path]
  obtain ⟨s2, l2, e2, F2, c2, n2, k2⟩ := foldlM_flood (fun t o => floodFill s.nb t r o) 0
    (fun s' l b F hm' hc => floodFill_flood hn hnone hnb s.nb s' l b F (by omega) hc) (nbrs s r) (componentAdd s r r) [] F1 (by simp)
    (by
      intro d hd hkd
      exact Relation.ReflTransGen.single ⟨hk, hkd, (hn r d).1 hd⟩)
  refine ⟨s2, l2, ?_, F2, ?_, ?_⟩
  · unfold floodFill
    rw [if_neg (by simp [hk]), hr]
    simp only
    have hnl : nbrs (componentAdd s r r) r = nbrs s r := F1.rel.nbrs r
    rw [← hnl] at e2
    exact e2
  · intro c
    constructor
    · intro h; exact (F2.mark c h).2.2
    · intro h
      induction h with
      | refl => simp
      | tail h1 h2 ih =>
        rename_i x y
        by_cases hx : x = r
        · subst hx
          exact k2 y ((hn x y).2 h2.2.2) h2.2.1
        · exact c2.2 x ih (by simp [hx]) y h2
  · have hsub : (r :: l2) ⊆ List.range s.nb := by
      intro c hc
      rw [List.mem_range]; exact hnb c (F2.mark c hc).2.2 (F2.mark c hc).2.1
    have := (List.subperm_of_subset F2.nodup hsub).length_le
    simpa using this

theorem chain_eq (s : St K) : ∀ (n : Nat) (o : Option Nat) (l : List Nat), Path s o l → l.length < n → chain s n o = some l
  | 0, _, _, _, h => by omega
  | n + 1, none, [], _, _ => rfl
  | n + 1, none, _ :: _, h, _ => h.elim
  | n + 1, some _, [], h, _ => h.elim
  | n + 1, some b, c :: l, ⟨e, p⟩, h => by
    subst e
    simp only [chain, chain_eq s n _ l p (by simpa using h)]
end

end Sp
end Cm
