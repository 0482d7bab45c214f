import Verif.Proofs.SpaceFlood

/-! # The loop that puts components to sleep -/
set_option linter.unusedSectionVars false
set_option linter.unusedSimpArgs false
set_option linter.unusedVariables false
set_option linter.unusedTactic false
set_option linter.unreachableTactic false

namespace Cm
namespace Sp
variable {K : Type}

theorem Quiet.adj {s s' : St K} (h : Quiet s s') (b c : Nat) : Adj s' b c ↔ Adj s b c := by
  simp only [Adj, h.thr, h.cn, (h.ar _).2.2.1, (h.ar _).2.2.2.1]

theorem Quiet.link {s s' : St K} (h : Quiet s s') (b c : Nat) : Link s' b c ↔ Link s b c := by
  simp only [Link, h.adj, (h.bd _).1]

theorem Quiet.conn {s s' : St K} (h : Quiet s s') (b c : Nat) : Conn s' b c ↔ Conn s b c := by
  have : Link s' = Link s := by funext x y; exact propext (h.link x y)
  simp only [Conn, this]

theorem Relinked.quiet {s s' : St K} (h : Relinked s s') : Quiet s s' := by
  have e := h.rest
  have ht := fun r => h.thr r
  have hc : s'.cached = s.cached := by rw [e]
  constructor
  case bd => intro b; obtain ⟨a1, a2, a3, a4, a5, a6⟩ := h.bd b; exact ⟨a1, a3, a4, a5, a6⟩
  case live => intro r; simp only [Sp.live, ht, hc]
  case ar => intro r; rw [e]; exact ⟨rfl, rfl, rfl, rfl, rfl, rfl⟩
  case stamps => rw [e]; exact fun h => h
  case restamp => rw [e]; exact fun r => Or.inl rfl
  all_goals (rw [e])

/-- The state without the marks of the flood fill on bodies that are awake. -/
def unmark (s : St K) : St K :=
  { s with bd := fun b => if b ∈ s.dyn then { s.bd b with root := none, next := none } else s.bd b }

theorem unmark_relinked (s : St K) : Relinked s (unmark s) := by
  refine ⟨rfl, fun c => ?_⟩
  simp only [unmark]
  split <;> exact ⟨rfl, rfl, rfl, rfl, rfl, rfl⟩

theorem unmark_in {s : St K} {b : Nat} (h : b ∈ s.dyn) : ((unmark s).bd b).root = none ∧ ((unmark s).bd b).next = none := by
  simp [unmark, h]

theorem unmark_out {s : St K} {b : Nat} (h : b ∉ s.dyn) : (unmark s).bd b = s.bd b := by
  simp [unmark, h]

section
variable [Zero K] [LT K] [DecidableRel (α := K) (· < ·)]

/-- Some body joined to this one is not idle. -/
def Busy (s : St K) (th : K) (b : Nat) : Prop := ∃ c, Conn s b c ∧ (s.bd c).idle < th

theorem Busy.of_conn {s : St K} {th : K} {b c : Nat} (h : Conn s b c) (k : Busy s th c) : Busy s th b := by
  obtain ⟨d, h1, h2⟩ := k
  exact ⟨d, Relation.ReflTransGen.trans h h1, h2⟩

/-- At the head of the loop, `s0` being the state before it. -/
structure LoopI (s0 s : St K) (th : K) (i : Nat) (P : List Nat) : Prop where
  inv : Inv (unmark s) s.sleeping [] P
  quiet : Quiet s0 s
  roused : s.roused = s0.roused
  idle : ∀ b, (s.bd b).idle = (s0.bd b).idle
  next : ∀ b ∈ s.dyn, (s.bd b).root = none → (s.bd b).next = none
  marks : ∀ b ∈ s.dyn.take i, (s.bd b).root = none
  busy : ∀ b ∈ s.dyn, (s.bd b).root ≠ none → (s.bd b).kind = .dynamic ∧ Busy s0 th b
  closed : ∀ b ∈ s.dyn.drop i, (s.bd b).root = none → ∀ c, Link s0 b c → c ∈ s.dyn.drop i ∧ (s.bd c).root = none
  done : ∀ b ∈ s.dyn.take i, (s.bd b).kind = .dynamic → Busy s0 th b
  slept : ∀ b ∈ s0.dyn, b ∉ s.dyn → ¬ Busy s0 th b ∧ (s.bd b).root ≠ none ∧ ∀ c, (s.bd c).root = (s.bd b).root ↔ Conn s0 b c
  seen : ∀ b ∈ s.dyn, ∀ m, (s.bd b).root = some m → m ∈ s.dyn.take i
  kept : ∀ b ∈ s.dyn, b ∈ s0.dyn
  others : ∀ b, b ∉ s0.dyn → (s.bd b).root = (s0.bd b).root

theorem mem_drop_of_not_take {l : List Nat} {i b : Nat} (h : b ∈ l) (hn : b ∉ l.take i) : b ∈ l.drop i := by
  rw [← List.take_append_drop i l, List.mem_append] at h
  exact h.resolve_left hn

theorem getElem?_split {l : List Nat} {i b : Nat} (h : l[i]? = some b) : i < l.length ∧ l.take (i + 1) = l.take i ++ [b] ∧ l.drop i = b :: l.drop (i + 1) := by
  have hi := (List.getElem?_eq_some_iff.1 h)
  obtain ⟨h1, h2⟩ := hi
  refine ⟨h1, ?_, ?_⟩
  · rw [List.take_add_one, h]; rfl
  · rw [List.drop_eq_getElem_cons h1, h2]

theorem LoopI.start {s : St K} {P : List Nat} (th : K) (H : Ok s P) (hl : s.locked = 0) : LoopI s s th 0 P := by
  have hroot : ∀ b ∈ s.dyn, (s.bd b).root = none := by
    intro b hb
    by_contra h
    exact ((H.inv.blists.dyn b).1 hb).2.2 (Or.inl h)
  have hno : unmark s = s := by
    unfold unmark
    have : (fun b => if b ∈ s.dyn then { s.bd b with root := none, next := none } else s.bd b) = s.bd := by
      funext b
      by_cases hb : b ∈ s.dyn
      · rw [if_pos hb]
        have h1 := hroot b hb
        have h2 := H.inv.groups.next b h1
        ext <;> simp [h1, h2]
      · rw [if_neg hb]
    rw [this]
  refine ⟨?_, Quiet.refl s, rfl, fun _ => rfl, ?_, by simp, ?_, ?_, by simp, ?_, ?_, fun _ h => h, fun _ _ => rfl⟩
  · rw [hno]
    have := H.inv
    rw [H.unlocked hl] at this
    exact this
  · intro b _; exact H.inv.groups.next b
  · intro b hb h; exact absurd (hroot b hb) h
  · intro b hb _ c hc
    rw [List.drop_zero] at hb ⊢
    have hrb := hroot b hb
    -- the other body is awake and in the space
    have key : ∀ a c', Together s s.roused c' a → (s.bd a).kind = .dynamic → (s.bd a).root = none → (s.bd c').root = none := by
      intro a c' h1 h2 h3
      by_contra h
      obtain ⟨g, hg⟩ := Option.ne_none_iff_exists'.1 h
      rcases h1 g (by rw [H.unlocked hl]; simp) hg with h4 | h4
      · rw [h2] at h4; cases h4
      · rw [h3] at h4; cases h4.2
    have hc2 : (s.bd c).root = none ∧ (s.bd c).space = true := by
      rcases hc.2.2 with ⟨r, h1, h2⟩ | ⟨j, h1, h2⟩
      · have hs := H.inv.arbs.shp r (Or.inr h1)
        have hg := H.inv.arbs.group r h1
        rcases h2 with ⟨h3, h4⟩ | ⟨h3, h4⟩
        · rw [h3, h4] at hg
          refine ⟨key b c hg.2 hc.1 hrb, ?_⟩
          have := H.inv.shapes.home _ hs.2.2.2
          rw [← hs.2.1, h4] at this
          exact this (by rw [hc.2.1]; simp)
        · rw [h3, h4] at hg
          refine ⟨key b c hg.1 hc.1 hrb, ?_⟩
          have := H.inv.shapes.home _ hs.2.2.1
          rw [← hs.1, h3] at this
          exact this (by rw [hc.2.1]; simp)
      · have hs := H.inv.joints.home j h1
        have hg := H.inv.joints.group j h1
        rcases h2 with ⟨h3, h4⟩ | ⟨h3, h4⟩
        · rw [h3, h4] at hg hs
          exact ⟨key b c hg.2 hc.1 hrb, hs.2 (by rw [hc.2.1]; simp)⟩
        · rw [h3, h4] at hg hs
          exact ⟨key b c hg.1 hc.1 hrb, hs.1 (by rw [hc.2.1]; simp)⟩
    refine ⟨(H.inv.blists.dyn c).2 ⟨hc2.2, by rw [hc.2.1]; simp, ?_⟩, hc2.1⟩
    rintro (h | h)
    · exact h hc2.1
    · rw [H.unlocked hl] at h; simp at h
  · intro b hb hb'; exact absurd hb hb'
  · intro b hb m hm; rw [hroot b hb] at hm; cases hm

/-- At the end of the loop no marks are left. -/
theorem LoopI.finish {s0 s : St K} {th : K} {i : Nat} {P : List Nat} (L : LoopI s0 s th i P) (h : s.dyn[i]? = none) : unmark s = s := by
  have hi : s.dyn.take i = s.dyn := List.take_of_length_le (by simpa using h)
  unfold unmark
  have : (fun b => if b ∈ s.dyn then { s.bd b with root := none, next := none } else s.bd b) = s.bd := by
    funext b
    by_cases hb : b ∈ s.dyn
    · rw [if_pos hb]
      have h1 := L.marks b (by rw [hi]; exact hb)
      have h2 := L.next b hb h1
      ext <;> simp [h1, h2]
    · rw [if_neg hb]
  rw [this]

/-- A body that is asleep is in a group whose root is asleep. -/
theorem LoopI.root_out {s0 s : St K} {th : K} {i : Nat} {P : List Nat} (L : LoopI s0 s th i P) {b g : Nat} (hb : b ∉ s.dyn)
    (h : (s.bd b).root = some g) : g ∉ s.dyn := by
  intro hg
  have h' : ((unmark s).bd b).root = some g := by rw [unmark_out hb]; exact h
  obtain ⟨_, _, _, _, _, _, h6⟩ := L.inv.groupList (by simp) h'
  rw [(unmark_in hg).1] at h6
  cases h6

/-- Clearing the links of the body at the index and going on. -/
theorem LoopI.next_body {s0 s s1 : St K} {th : K} {i b : Nat} {P : List Nat} (L : LoopI s0 s th i P) (hi : s.dyn[i]? = some b)
    (hrel : Relinked s s1) (hout : ∀ c, c ∉ s.dyn → s1.bd c = s.bd c)
    (hroot : ∀ c ∈ s.dyn, (s1.bd c).root = (s.bd c).root ∨ ((∃ m ∈ s.dyn.take (i + 1), (s1.bd c).root = some m) ∧ c ∈ s.dyn.drop i ∧ (s.bd c).kind = .dynamic ∧ Busy s0 th c))
    (hnext : ∀ c ∈ s.dyn, (s1.bd c).root = none → (s1.bd c).next = none)
    (hbsy : (s.bd b).kind = .dynamic → Busy s0 th b)
    (hself : (s.bd b).kind = .dynamic → (s1.bd b).root ≠ none)
    (hclosed : ∀ x ∈ s.dyn.drop i, (s1.bd x).root = none → ∀ c, Link s0 x c → c ∈ s.dyn.drop i ∧ (s1.bd c).root = none) :
    LoopI s0 (s1.setB b fun d => { d with root := none, next := none }) th (i + 1) P := by
  obtain ⟨hlen, htake, hdrop⟩ := getElem?_split hi
  have hbd : b ∈ s.dyn := List.mem_of_getElem? hi
  set s2 := s1.setB b fun d => { d with root := none, next := none } with hs2
  have hrel2 : Relinked s s2 := hrel.trans (Relinked.setB s1 b (fun _ => none) (fun _ => none))
  have e1 : s2.dyn = s.dyn := by rw [hrel2.rest]
  have hnd : s.dyn.Nodup := by have := L.inv.blists.dynN; simpa [unmark] using this
  have hb2 : (s2.bd b).root = none ∧ (s2.bd b).next = none := by simp [hs2, St.setB]
  have ho2 : ∀ c, c ≠ b → s2.bd c = s1.bd c := by intro c hc; simp [hs2, St.setB, hc]
  have hbn : b ∉ s.dyn.take i ∧ b ∉ s.dyn.drop (i + 1) := by
    have h := hnd
    rw [← List.take_append_drop i s.dyn, hdrop, List.nodup_append] at h
    refine ⟨fun h' => h.2.2 b h' b (by simp) rfl, ?_⟩
    exact (List.nodup_cons.1 h.2.1).1
  have hun : unmark s2 = unmark s := by
    have : (unmark s2).bd = (unmark s).bd := by
      funext c
      by_cases hc : c ∈ s.dyn
      · have h1 := hrel2.bd c
        simp only [unmark, e1, if_pos hc]
        ext <;> simp [h1]
      · have hcb : c ≠ b := by rintro rfl; exact hc hbd
        rw [unmark_out hc, unmark_out (by rw [e1]; exact hc), ho2 c hcb, hout c hc]
    have e2 : unmark s2 = { unmark s with bd := (unmark s2).bd } := by
      simp only [unmark]; rw [hrel2.rest]
    rw [e2, this]
  have hdisj : ∀ c ∈ s.dyn.take i, c ∉ s.dyn.drop i := by
    intro c hc hc'
    have h := hnd
    rw [← List.take_append_drop i s.dyn, List.nodup_append] at h
    exact h.2.2 c hc c hc' rfl
  constructor
  · rw [hun]
    have : s2.sleeping = s.sleeping := by rw [hrel2.rest]
    rw [this]; exact L.inv
  · exact L.quiet.trans hrel2.quiet
  · rw [hrel2.rest]; exact L.roused
  · intro c; rw [(hrel2.bd c).2.1]; exact L.idle c
  · intro c hc h
    rw [e1] at hc
    by_cases hcb : c = b
    · subst hcb; exact hb2.2
    · rw [ho2 c hcb] at h ⊢; exact hnext c hc h
  · intro c hc
    rw [e1, htake, List.mem_append, List.mem_singleton] at hc
    by_cases hcb : c = b
    · subst hcb; exact hb2.1
    · have hc' := hc.resolve_right hcb
      rw [ho2 c hcb]
      rcases hroot c (List.mem_of_mem_take hc') with h | h
      · rw [h]; exact L.marks c hc'
      · exact absurd h.2.1 (hdisj c hc')
  · intro c hc h
    rw [e1] at hc
    by_cases hcb : c = b
    · subst hcb; exact absurd hb2.1 h
    · rw [ho2 c hcb] at h
      rw [(hrel2.bd c).1]
      rcases hroot c hc with h' | h'
      · rw [h'] at h; exact L.busy c hc h
      · exact h'.2.2
  · intro x hx hrx c hc
    rw [e1] at hx ⊢
    have hxb : x ≠ b := by rintro rfl; exact hbn.2 hx
    rw [ho2 x hxb] at hrx
    have hx' : x ∈ s.dyn.drop i := by rw [hdrop]; exact List.mem_cons_of_mem _ hx
    obtain ⟨h1, h2⟩ := hclosed x hx' hrx c hc
    have hcb : c ≠ b := by
      rintro rfl
      refine hself ?_ h2
      rw [(L.quiet.bd c).1]; exact hc.2.1
    rw [hdrop] at h1
    refine ⟨(List.mem_cons.1 h1).resolve_left hcb, ?_⟩
    rw [ho2 c hcb]; exact h2
  · intro c hc hk
    rw [(hrel2.bd c).1] at hk
    rw [e1, htake, List.mem_append, List.mem_singleton] at hc
    rcases hc with hc | rfl
    · exact L.done c hc hk
    · exact hbsy hk
  · intro c hc0 hc
    rw [e1] at hc
    obtain ⟨h1, h2, h3⟩ := L.slept c hc0 hc
    have hcb : c ≠ b := by rintro rfl; exact hc hbd
    rw [ho2 c hcb, hout c hc]
    refine ⟨h1, h2, fun d => ?_⟩
    rw [← h3 d]
    by_cases hd : d ∈ s.dyn
    · -- neither a marked nor an unmarked body that is awake has this root
      obtain ⟨g, hg⟩ := Option.ne_none_iff_exists'.1 h2
      have hgo := L.root_out hc hg
      have hn1 : ¬ (s.bd d).root = (s.bd c).root := by
        intro h
        have := (h3 d).1 h
        have hbz := L.busy d hd (by rw [h]; exact h2)
        exact h1 (hbz.2.of_conn this)
      have hn2 : ¬ (s2.bd d).root = (s.bd c).root := by
        intro h
        by_cases hdb : d = b
        · subst hdb; rw [hb2.1] at h; exact h2 h.symm
        · rw [ho2 d hdb] at h
          rcases hroot d hd with h' | h'
          · rw [h'] at h; exact hn1 h
          · obtain ⟨⟨m, hm, h4⟩, _⟩ := h'
            rw [h4, hg] at h
            exact hgo (Option.some.inj h ▸ List.mem_of_mem_take hm)
      exact ⟨fun h => absurd h hn2, fun h => absurd h hn1⟩
    · have hdb : d ≠ b := by rintro rfl; exact hd hbd
      rw [ho2 d hdb, hout d hd]
  · intro c hc m hm
    rw [e1] at hc ⊢
    by_cases hcb : c = b
    · subst hcb; rw [hb2.1] at hm; cases hm
    · rw [ho2 c hcb] at hm
      rcases hroot c hc with h | ⟨⟨m', h1, h2⟩, _⟩
      · rw [h] at hm
        rw [htake]; exact List.mem_append_left _ (L.seen c hc m hm)
      · rw [h2] at hm; cases hm; exact h1
  · intro c hc; rw [e1] at hc; exact L.kept c hc
  · intro c hc
    have hcd : c ∉ s.dyn := fun h => hc (L.kept c h)
    have hcb : c ≠ b := by rintro rfl; exact hcd hbd
    rw [ho2 c hcb, hout c hcd]; exact L.others c hc

theorem take_filter_of {l : List Nat} {i : Nat} {p : Nat → Bool} (hi : i ≤ l.length) (h : ∀ c ∈ l.take i, p c = true) :
    (l.filter p).take i = l.take i ∧ (l.filter p).drop i = (l.drop i).filter p := by
  have e : l.filter p = l.take i ++ (l.drop i).filter p := by
    conv_lhs => rw [← List.take_append_drop i l]
    rw [List.filter_append, List.filter_eq_self.2 h]
  have hlen : (l.take i).length = i := by simp [hi]
  rw [e]
  constructor
  · rw [List.take_left' hlen]
  · rw [List.drop_left' hlen]

/-- The component of the body at the index falls asleep. -/
theorem LoopI.sleep {s0 s s1 : St K} {th : K} {i b : Nat} {l P : List Nat} (L : LoopI s0 s th i P) (hi : s.dyn[i]? = some b)
    (F : Flood s s1 b l) (hconn : ∀ c, c ∈ b :: l ↔ Conn s b c) (hin : ∀ c ∈ b :: l, c ∈ s.dyn.drop i ∧ (s.bd c).root = none)
    (hfull : ∀ c ∈ s.dyn, ∀ x ∈ (s.bd c).shapes, (s.sh x).space = true)
    (hkin : ∀ x y, Adj s0 x y → (s0.bd x).kind = .dynamic → (s0.bd y).kind = .kinematic → (s0.bd x).idle < th)
    (hidle : ∀ c ∈ b :: l, ¬ (s.bd c).idle < th) :
    ∃ s2, deactivateAll { s1 with sleeping := s1.sleeping ++ [b] } (b :: l) = some s2 ∧ LoopI s0 s2 th i P ∧ s2.dyn.length < s.dyn.length := by
  obtain ⟨hlen, htake, hdrop⟩ := getElem?_split hi
  have hbd : b ∈ s.dyn := List.mem_of_getElem? hi
  have hnd : s.dyn.Nodup := by have := L.inv.blists.dynN; simpa [unmark] using this
  have hind : ∀ c ∈ b :: l, c ∈ s.dyn := fun c hc => List.mem_of_mem_drop (hin c hc).1
  have hnotbusy : ∀ c ∈ b :: l, ¬ Busy s0 th c := by
    rintro c hc ⟨d, h1, h2⟩
    have hd : d ∈ b :: l := by
      rw [hconn] at hc ⊢
      exact Relation.ReflTransGen.trans hc ((L.quiet.conn c d).2 h1)
    refine hidle d hd ?_
    rw [L.idle]; exact h2
  set u : St K := { unmark s with sleeping := s.sleeping ++ [b] } with hu
  have Iu : Inv u s.sleeping [] P := L.inv.congr (by constructor <;> intros <;> simp [hu, SameB])
  have hrelu := unmark_relinked s
  obtain ⟨u', eu, Iu', qu, bdu, slu, rou, dyu⟩ := deactivateAll_inv (b :: l) u s.sleeping [] P Iu F.nodup (by
    intro c hc
    refine ⟨hind c hc, ?_, ?_⟩
    · show ((unmark s).bd c).kind = _
      rw [(hrelu.bd c).1]; exact (F.mark c hc).2.1
    · show ∀ x ∈ ((unmark s).bd c).shapes, _
      rw [(hrelu.bd c).2.2.1]; exact hfull c (hind c hc))
  have hs1 : ({ s1 with sleeping := s1.sleeping ++ [b] } : St K) = { u with bd := s1.bd } := by
    simp only [hu, unmark]; rw [F.rel.rest]
  have hrel := deactivateAll_relink s1.bd (b :: l) u (by
    intro c
    have h1 := F.rel.bd c
    have h2 := hrelu.bd c
    show _ = ((unmark s).bd c).kind ∧ _ = ((unmark s).bd c).shapes ∧ _ = ((unmark s).bd c).arbs ∧ _ = ((unmark s).bd c).cons
    refine ⟨h1.1.trans h2.1.symm, h1.2.2.1.trans h2.2.2.1.symm, h1.2.2.2.1.trans h2.2.2.2.1.symm, h1.2.2.2.2.1.trans h2.2.2.2.2.1.symm⟩)
  rw [eu] at hrel
  set s2 : St K := { u' with bd := s1.bd } with hs2
  have hdy2 : s2.dyn = s.dyn.filter fun c => decide (c ∉ b :: l) := by
    show u'.dyn = _
    rw [dyu]
    exact hnd.sdiff_eq_filter
  have hmem2 : ∀ c, c ∈ s2.dyn ↔ (c ∈ s.dyn ∧ c ∉ b :: l) := by
    intro c; rw [hdy2, List.mem_filter, decide_eq_true_iff]
  have hdisj : ∀ c ∈ s.dyn.take i, c ∉ s.dyn.drop i := by
    intro c hc hc'
    have h := hnd
    rw [← List.take_append_drop i s.dyn, List.nodup_append] at h
    exact h.2.2 c hc c hc' rfl
  obtain ⟨htk, hdr⟩ := take_filter_of (l := s.dyn) (i := i) (p := fun c => decide (c ∉ b :: l)) (le_of_lt hlen) (by
    intro c hc
    rw [decide_eq_true_iff]
    intro h; exact hdisj c hc (hin c h).1)
  rw [← hdy2] at htk hdr
  have hb1 : ∀ c, c ∉ b :: l → (s1.bd c).root = (s.bd c).root ∧ (s1.bd c).next = (s.bd c).next := F.old
  have hbd2 : s2.bd = s1.bd := rfl
  -- what is known about every body after it
  have hk2 : ∀ c, (s2.bd c).kind = (s.bd c).kind := fun c => (F.rel.bd c).1
  have q2 : Quiet s s2 := by
    have qa : Quiet s u := hrelu.quiet.trans (by
      constructor <;> intros <;> first | rfl | (rename_i h r hr; exact h r hr) | exact ⟨rfl, rfl, rfl, rfl, rfl⟩ | exact ⟨rfl, rfl, rfl, rfl, rfl, rfl⟩ | exact Or.inl rfl | exact Iff.rfl)
    have qb := qa.trans qu
    constructor
    case bd => intro c; obtain ⟨a1, a2, a3, a4, a5, a6⟩ := F.rel.bd c; exact ⟨a1, a3, a4, a5, a6⟩
    case ar => exact qb.ar
    case live =>
      intro r
      rw [← qb.live r]
      have : thr s2 r ↔ thr u' r := by
        have h1 : thr u' r ↔ thr s r := qb.thr r
        rw [h1]
        simp only [thr]
        have e : (s2.ar r).a = (s.ar r).a := (qb.ar r).2.2.1
        rw [e, hbd2, (F.rel.bd _).2.2.2.1]
      simp only [live, this]
      exact Iff.rfl
    case sh => exact qb.sh
    case cn => exact qb.cn
    case nb => exact qb.nb
    case stat => exact qb.stat
    case stamp => exact qb.stamp
    case persistence => exact qb.persistence
    case threshold => exact qb.threshold
    case locked => exact qb.locked
    case fresh => exact qb.fresh
    case pool => exact qb.pool
    case evs => exact qb.evs
    case stamps => exact qb.stamps
    case restamp => exact qb.restamp
  -- links to static bodies, or inside the component
  have hcl : ∀ x y, x ∈ b :: l → Adj s x y → (s.bd y).kind = .static ∨ y ∈ b :: l := by
    intro x y hx ha
    have hkx := (F.mark x hx).2.1
    cases hky : (s.bd y).kind with
    | static => exact Or.inl rfl
    | dynamic =>
      right
      rw [hconn] at hx ⊢
      exact Relation.ReflTransGen.tail hx ⟨hkx, hky, ha⟩
    | kinematic =>
      exfalso
      refine hidle x hx ?_
      rw [L.idle]
      refine hkin x y ((L.quiet.adj x y).1 ha) ?_ ?_
      · rw [← (L.quiet.bd x).1]; exact hkx
      · rw [← (L.quiet.bd y).1]; exact hky
  have hthr : ∀ r, thr u' r ↔ thr s r := fun r => by
    have qa : Quiet s u := hrelu.quiet.trans (by
      constructor <;> intros <;> first | rfl | (rename_i h r hr; exact h r hr) | exact ⟨rfl, rfl, rfl, rfl, rfl⟩ | exact ⟨rfl, rfl, rfl, rfl, rfl, rfl⟩ | exact Or.inl rfl | exact Iff.rfl)
    exact (qa.trans qu).thr r
  have hunm : (unmark s2).bd = fun c => if c ∈ s2.dyn then { s1.bd c with root := none, next := none } else s1.bd c := rfl
  have hnsl : b ∉ s.sleeping := by
    intro h
    obtain ⟨l', h1, h2, h3⟩ := L.inv.groups.chain b h
    cases l' with
    | nil => exact h1.elim
    | cons c l' =>
      have e : b = c := h1.1
      subst e
      have := ((h3 b).1 (by simp)).2
      rw [(unmark_in hbd).1] at this
      cases this
  have hbu : ∀ c, u'.bd c = (unmark s).bd c := fun c => by rw [bdu]
  have Ifin : Inv (unmark s2) (s.sleeping ++ [b]) [] P := by
    have Iu2 : Inv u' s.sleeping (b :: l) P := by simpa using Iu'
    refine Iu2.settle hnsl rfl ?_ ?_ ?_ ?_ ?_ ?_
    · intro c
      rw [hbu, hunm]
      have h1 := F.rel.bd c
      have h2 := hrelu.bd c
      simp only
      split
      · exact ⟨h1.1.trans h2.1.symm, h1.2.2.1.trans h2.2.2.1.symm, h1.2.2.2.1.trans h2.2.2.2.1.symm, h1.2.2.2.2.1.trans h2.2.2.2.2.1.symm,
          h1.2.2.2.2.2.trans h2.2.2.2.2.2.symm⟩
      · exact ⟨h1.1.trans h2.1.symm, h1.2.2.1.trans h2.2.2.1.symm, h1.2.2.2.1.trans h2.2.2.2.1.symm, h1.2.2.2.2.1.trans h2.2.2.2.2.1.symm,
          h1.2.2.2.2.2.trans h2.2.2.2.2.2.symm⟩
    · intro c hc
      rw [hbu, hunm]
      simp only
      by_cases hcd : c ∈ s.dyn
      · rw [if_pos ((hmem2 c).2 ⟨hcd, hc⟩), (unmark_in hcd).1, (unmark_in hcd).2]; exact ⟨rfl, rfl⟩
      · rw [if_neg (fun h => hcd ((hmem2 c).1 h).1), unmark_out hcd]
        exact hb1 c hc
    · intro c hc
      rw [hunm]
      simp only
      rw [if_neg (fun h => ((hmem2 c).1 h).2 hc)]
      exact (F.mark c hc).1
    · refine Path.congr_mem _ _ ?_ F.path
      intro c hc
      rw [hunm]
      simp only
      rw [if_neg (fun h => ((hmem2 c).1 h).2 hc)]
    · intro c hc
      have e1 : u'.cn = s.cn := by rw [qu.cn, hu]; rfl
      rw [e1] at hc ⊢
      have hk' : ∀ c, (u'.bd c).kind = (s.bd c).kind := fun c => by rw [hbu, (hrelu.bd c).1]
      rw [hk', hk']
      exact ⟨fun h => hcl _ _ h (Or.inr ⟨c, hc, Or.inl ⟨rfl, rfl⟩⟩), fun h => hcl _ _ h (Or.inr ⟨c, hc, Or.inr ⟨rfl, rfl⟩⟩)⟩
    · intro r hr
      rw [hthr] at hr
      have e1 := qu.ar r
      have e2 : (u.ar r) = s.ar r := rfl
      rw [e2] at e1
      have hk' : ∀ c, (u'.bd c).kind = (s.bd c).kind := fun c => by rw [hbu, (hrelu.bd c).1]
      rw [hk', hk', e1.2.2.1, e1.2.2.2.1]
      exact ⟨fun h => hcl _ _ h (Or.inl ⟨r, hr, Or.inl ⟨rfl, rfl⟩⟩), fun h => hcl _ _ h (Or.inl ⟨r, hr, Or.inr ⟨rfl, rfl⟩⟩)⟩
  have hsl2 : s2.sleeping = s.sleeping ++ [b] := by show u'.sleeping = _; rw [slu]
  refine ⟨s2, by rw [hs1, hrel]; rfl, ?_, ?_⟩
  · constructor
    · rw [hsl2]; exact Ifin
    · exact L.quiet.trans q2
    · show u'.roused = _
      rw [rou]; exact L.roused
    · intro c; rw [hbd2, (F.rel.bd c).2.1]; exact L.idle c
    · intro c hc h
      obtain ⟨h1, h2⟩ := (hmem2 c).1 hc
      rw [hbd2, (hb1 c h2).1] at h
      rw [hbd2, (hb1 c h2).2]
      exact L.next c h1 h
    · intro c hc
      rw [htk] at hc
      have hcn : c ∉ b :: l := fun h => hdisj c hc (hin c h).1
      rw [hbd2, (hb1 c hcn).1]; exact L.marks c hc
    · intro c hc h
      obtain ⟨h1, h2⟩ := (hmem2 c).1 hc
      rw [hbd2, (hb1 c h2).1] at h
      rw [hk2]; exact L.busy c h1 h
    · intro x hx hrx c hc
      rw [hdr, List.mem_filter, decide_eq_true_iff] at hx
      rw [hbd2, (hb1 x hx.2).1] at hrx
      obtain ⟨h1, h2⟩ := L.closed x hx.1 hrx c hc
      have hcn : c ∉ b :: l := by
        intro h
        apply hx.2
        rw [hconn] at h ⊢
        exact Relation.ReflTransGen.tail h ((L.quiet.link c x).2 hc.symm)
      refine ⟨?_, ?_⟩
      · rw [hdr, List.mem_filter, decide_eq_true_iff]; exact ⟨h1, hcn⟩
      · rw [hbd2, (hb1 c hcn).1]; exact h2
    · intro c hc hk
      rw [htk] at hc
      rw [hk2] at hk
      exact L.done c hc hk
    · intro c hc0 hc
      by_cases hcl' : c ∈ b :: l
      · refine ⟨hnotbusy c hcl', ?_, fun d => ?_⟩
        · rw [hbd2, (F.mark c hcl').1]; simp
        · rw [hbd2, (F.mark c hcl').1, ← L.quiet.conn c d]
          have hcc := (hconn c).1 hcl'
          constructor
          · intro h
            have hd : d ∈ b :: l := by
              by_contra hd
              rw [(hb1 d hd).1] at h
              by_cases hdd : d ∈ s.dyn
              · exact hdisj b (L.seen d hdd b h) (hin b (by simp)).1
              · exact L.root_out hdd h hbd
            exact Relation.ReflTransGen.trans hcc.symm ((hconn d).1 hd)
          · intro h
            have hd : d ∈ b :: l := (hconn d).2 (Relation.ReflTransGen.trans hcc h)
            exact (F.mark d hd).1
      · have hcd : c ∉ s.dyn := fun h => hc ((hmem2 c).2 ⟨h, hcl'⟩)
        obtain ⟨h1, h2, h3⟩ := L.slept c hc0 hcd
        rw [hbd2, (hb1 c hcl').1]
        refine ⟨h1, h2, fun d => ?_⟩
        by_cases hd : d ∈ b :: l
        · rw [(F.mark d hd).1]
          constructor
          · intro h
            exact absurd hbd (L.root_out hcd h.symm)
          · intro h
            have := (h3 d).2 h
            rw [(hin d hd).2] at this
            exact absurd this.symm h2
        · rw [(hb1 d hd).1]; exact h3 d
    · intro c hc m hm
      obtain ⟨h1, h2⟩ := (hmem2 c).1 hc
      rw [hbd2, (hb1 c h2).1] at hm
      rw [htk]; exact L.seen c h1 m hm
    · intro c hc; exact L.kept c ((hmem2 c).1 hc).1
    · intro c hc
      have hcn : c ∉ b :: l := fun h => hc (L.kept c (hind c h))
      rw [hbd2, (hb1 c hcn).1]; exact L.others c hc
  · rw [hdy2]
    have : (s.dyn.filter fun c => decide (c ∉ b :: l)).length < s.dyn.length := by
      rw [List.length_filter_lt_length_iff_exists]
      exact ⟨b, hbd, by simp⟩
    exact this

/-- What the loop does, for a space whose bookkeeping is right. -/
theorem sleepLoop_loop {s0 : St K} {th : K} {P : List Nat} (hth : (0 : K) < th)
    (hfull : ∀ c ∈ s0.dyn, ∀ x ∈ (s0.bd c).shapes, (s0.sh x).space = true)
    (hkin : ∀ x y, Adj s0 x y → (s0.bd x).kind = .dynamic → (s0.bd y).kind = .kinematic → (s0.bd x).idle < th)
    (hzero : ∀ b, (s0.bd b).kind = .kinematic → (s0.bd b).idle = 0) :
    ∀ (n : Nat) (s : St K) (i : Nat), LoopI s0 s th i P → s.dyn.length - i < n →
      ∃ s' j, sleepLoop n s th i = some s' ∧ LoopI s0 s' th j P ∧ s'.dyn[j]? = none
  | 0, s, i, _, h => by omega
  | n + 1, s, i, L, hn => by
    unfold sleepLoop
    cases hi : s.dyn[i]? with
    | none => exact ⟨s, i, rfl, L, hi⟩
    | some b =>
      simp only
      obtain ⟨hlen, htake, hdrop⟩ := getElem?_split hi
      have hbd : b ∈ s.dyn := List.mem_of_getElem? hi
      have hbdr : b ∈ s.dyn.drop i := by rw [hdrop]; simp
      have hbtk : b ∈ s.dyn.take (i + 1) := by rw [htake]; simp
      by_cases hr : (s.bd b).root = none
      swap
      · rw [if_pos (by simpa [Option.isSome_iff_ne_none] using hr)]
        have L' := L.next_body (s1 := s) hi (Relinked.refl s) (fun _ _ => rfl) (fun _ _ => Or.inl rfl) L.next
          (fun _ => (L.busy b hbd hr).2) (fun _ => hr) L.closed
        exact sleepLoop_loop hth hfull hkin hzero n _ (i + 1) L' (by show s.dyn.length - (i + 1) < n; omega)
      rw [if_neg (by simp [hr])]
      have hspace := ((L.inv.blists.dyn b).1 hbd).1
      by_cases hk : (s.bd b).kind = .dynamic
      swap
      · -- a kinematic body
        have hfl : floodFill (s.nb + 1) s b b = some s := by unfold floodFill; rw [if_pos hk]
        have hch : chain s (s.nb + 1) (some b) = some [b] := by
          have hnb : b < s.nb := L.inv.groups.nb b hspace
          refine chain_eq s _ _ _ ⟨rfl, ?_⟩ (by simp; omega)
          rw [L.next b hbd hr]; trivial
        have hkin' : (s.bd b).kind = .kinematic := by
          have hst := ((L.inv.blists.dyn b).1 hbd).2.1
          rw [((unmark_relinked s).bd b).1] at hst
          cases h : (s.bd b).kind with
          | dynamic => exact absurd h hk
          | static => exact absurd h hst
          | kinematic => rfl
        rw [hfl]
        simp only [hch]
        have hact : componentActive s th [b] = true := by
          simp only [componentActive, List.any_cons, List.any_nil, Bool.or_false, decide_eq_true_eq]
          rw [L.idle, hzero b (by rw [← (L.quiet.bd b).1]; exact hkin')]
          exact hth
        rw [if_pos hact]
        have L' := L.next_body (s1 := s) hi (Relinked.refl s) (fun _ _ => rfl) (fun _ _ => Or.inl rfl) L.next
          (fun h => absurd h hk) (fun h => absurd h hk) L.closed
        exact sleepLoop_loop hth hfull hkin hzero n _ (i + 1) L' (by show s.dyn.length - (i + 1) < n; omega)
      · -- a component of dynamic bodies
        have hin : ∀ c, Conn s b c → c ∈ s.dyn.drop i ∧ (s.bd c).root = none := by
          intro c hc
          induction hc with
          | refl => exact ⟨hbdr, hr⟩
          | tail h1 h2 ih => exact L.closed _ ih.1 ih.2 _ ((L.quiet.link _ _).1 h2)
        have hnbr : ∀ x y, y ∈ nbrs s x ↔ Adj s x y := by
          intro x y
          rw [← (unmark_relinked s).nbrs, ← (unmark_relinked s).adj]
          exact mem_nbrs L.inv x y
        obtain ⟨s1, l, e1, F, hconn, hlenl⟩ := floodFill_root (r := b) hnbr hk (fun c hc _ => (hin c hc).2) (L.next b hbd hr)
          (fun c hc _ => L.inv.groups.nb c ((L.inv.blists.dyn c).1 (List.mem_of_mem_drop (hin c hc).1)).1)
        have hnb1 : s1.nb = s.nb := by rw [F.rel.rest]
        have hch : chain s1 (s1.nb + 1) (some b) = some (b :: l) := chain_eq s1 _ _ _ F.path (by rw [hnb1]; omega)
        rw [e1]
        simp only [hch]
        have hin' : ∀ c ∈ b :: l, c ∈ s.dyn.drop i ∧ (s.bd c).root = none := fun c hc => hin c ((hconn c).1 hc)
        by_cases hact : componentActive s1 th (b :: l) = true
        · rw [if_pos hact]
          have hbusy : ∀ c ∈ b :: l, Busy s0 th c := by
            simp only [componentActive, List.any_eq_true, decide_eq_true_eq] at hact
            obtain ⟨d, hd, hlt⟩ := hact
            rw [(F.rel.bd d).2.1, L.idle] at hlt
            intro c hc
            refine ⟨d, ?_, hlt⟩
            rw [← L.quiet.conn]
            exact Relation.ReflTransGen.trans ((hconn c).1 hc).symm ((hconn d).1 hd)
          have hnot : ∀ c, c ∉ s.dyn → c ∉ b :: l := fun c hc h => hc (List.mem_of_mem_drop (hin' c h).1)
          have L' := L.next_body (s1 := s1) hi F.rel
            (by
              intro c hc
              have h1 := F.old c (hnot c hc)
              have h2 := F.rel.bd c
              ext1 <;> simp [h1, h2])
            (by
              intro c hc
              by_cases hcl : c ∈ b :: l
              · exact Or.inr ⟨⟨b, hbtk, (F.mark c hcl).1⟩, (hin' c hcl).1, (F.mark c hcl).2.1, hbusy c hcl⟩
              · exact Or.inl (F.old c hcl).1)
            (by
              intro c hc h
              have hcl : c ∉ b :: l := by intro hcl; rw [(F.mark c hcl).1] at h; cases h
              rw [(F.old c hcl).2]
              exact L.next c hc (by rw [← (F.old c hcl).1]; exact h))
            (fun _ => hbusy b (by simp)) (fun _ => by rw [(F.mark b (by simp)).1]; simp)
            (by
              intro x hx h c hc
              have hxl : x ∉ b :: l := by intro hcl; rw [(F.mark x hcl).1] at h; cases h
              rw [(F.old x hxl).1] at h
              obtain ⟨h1, h2⟩ := L.closed x hx h c hc
              have hcl : c ∉ b :: l := by
                intro hcl
                apply hxl
                rw [hconn] at hcl ⊢
                exact Relation.ReflTransGen.tail hcl ((L.quiet.link c x).2 hc.symm)
              exact ⟨h1, by rw [(F.old c hcl).1]; exact h2⟩)
          have hd1 : s1.dyn = s.dyn := by rw [F.rel.rest]
          exact sleepLoop_loop hth hfull hkin hzero n _ (i + 1) L' (by show s1.dyn.length - (i + 1) < n; rw [hd1]; omega)
        · rw [if_neg hact]
          obtain ⟨s2, e2, L2, hlt⟩ := L.sleep hi F hconn hin'
            (by
              intro c hc
              rw [(L.quiet.bd c).2.1, L.quiet.sh]
              exact hfull c (L.kept c hc))
            hkin
            (by
              intro c hc hlt
              apply hact
              simp only [componentActive, List.any_eq_true, decide_eq_true_eq]
              exact ⟨c, hc, by rw [(F.rel.bd c).2.1]; exact hlt⟩)
          rw [e2]
          simp only
          exact sleepLoop_loop hth hfull hkin hzero n s2 i L2 (by omega)
end

end Sp
end Cm
