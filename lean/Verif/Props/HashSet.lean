import Verif.Proofs.HashSet
/-! # C01, C02: the hash set -/
namespace Cm
open HashSet Spec
variable {T U : Type}

/-- **C01.** Every history of client operations on a new hash set, for every consistent equality and
hash, yields the observations of the abstract set: membership, returned elements, enumeration (each
stored element once) and count. It does not crash while fewer than 1610612741 elements are stored. -/
theorem C01_hashset_refines_set (isEqual : T → U → Bool) (h : T → Nat) (hc : Consistent isEqual h)
    (ops : List (Op T U)) (hok : ∀ op ∈ ops, OpOk isEqual op)
    (hcard : ∀ pre, pre <+: ops → (setRun isEqual [] pre).length < 1610612741) :
    ∃ s os, run isEqual h HashSet.new ops = some (s, os) ∧ setOuts isEqual [] ops os ∧
      (HashSet.each s).Perm (setRun isEqual [] ops) ∧
      HashSet.count s = (setRun isEqual [] ops).length := by
  have habs : (abs (HashSet.new : HashSet U)).Perm [] := by simp [abs, HashSet.new]
  obtain ⟨⟨s, os⟩, hr⟩ := run_total hc ops hok [] inv_new habs (by simp [HashSet.new]) hcard
  obtain ⟨hi, hp, ho⟩ := run_refines hc ops hok [] inv_new habs hr
  refine ⟨s, os, hr, ho, hp, ?_⟩
  show s.entries = _
  rw [hi.cnt, ← hp.length_eq, abs, List.length_map]

/-- Elements stored by the abstract set are pairwise different under the equality test. -/
theorem C01_spec_elements_distinct (isEqual : T → U → Bool) (h : T → Nat) (hc : Consistent isEqual h)
    (ops : List (Op T U)) (hok : ∀ op ∈ ops, OpOk isEqual op) :
    (setRun isEqual [] ops).Pairwise (fun e e' => ∀ p, isEqual p e → ¬ isEqual p e') := by
  suffices H : ∀ (ops : List (Op T U)) (_ : ∀ op ∈ ops, OpOk isEqual op) (L : List U),
      L.Pairwise (fun e e' => ∀ p, isEqual p e → ¬ isEqual p e') →
      (setRun isEqual L ops).Pairwise (fun e e' => ∀ p, isEqual p e → ¬ isEqual p e') from
    H ops hok [] List.Pairwise.nil
  intro ops
  induction ops with
  | nil => intro _ L hL; exact hL
  | cons op ops ih =>
    intro hok L hL
    refine ih (fun op hop => hok op (by simp [hop])) _ ?_
    cases op with
    | insert p u =>
      simp only [setStep]
      split
      · exact hL
      · rename_i hn
        rw [List.pairwise_cons]
        refine ⟨?_, hL⟩
        intro e he q hq hqe
        apply hn
        rw [List.any_eq_true]
        exact ⟨e, he, hc.cls q p u e hq (hok (.insert p u) (by simp)) hqe⟩
    | remove p => exact hL.filter _
    | filter f => exact hL.filter _
    | find p => exact hL
    | each => exact hL
    | count => exact hL

/-- Keys equal up to the tens digit, everything in one chain: consistent. -/
example : Consistent (fun (p e : Nat) => p / 10 == e / 10) (fun _ => 7) := by
  refine ⟨fun _ _ _ _ _ => rfl, ?_⟩
  intro p q e e' h1 h2 h3
  simp only [beq_iff_eq] at *
  omega

/-- A history that inserts 6 colliding elements (growing 5 → 13), with a duplicate and a removal. -/
example : (run (fun (p e : Nat) => p == e) (fun _ => 7) HashSet.new
    [.insert 1 1, .insert 2 2, .insert 3 3, .insert 4 4, .insert 5 5, .insert 6 6, .insert 3 3,
     .remove 4, .count, .find 4]).isSome = true := by decide +kernel

/-- **C02.** In every state reached from a new set: the number of entries is below the table size,
each stored element sits in the chain of its hash, and the stored hash is the hash of its key. -/
theorem C02_hashset_load (isEqual : T → U → Bool) (h : T → Nat) (hc : Consistent isEqual h)
    (ops : List (Op T U)) (hok : ∀ op ∈ ops, OpOk isEqual op) {s : HashSet U} {os : List (Out U)}
    (hr : run isEqual h HashSet.new ops = some (s, os)) :
    s.entries < s.size ∧ s.table.length = s.size ∧
    ∀ i c, s.table[i]? = some c → ∀ b ∈ c, ∃ p, isEqual p b.elt ∧ b.hash = h p ∧ h p % s.size = i := by
  have habs : (abs (HashSet.new : HashSet U)).Perm [] := by simp [abs, HashSet.new]
  obtain ⟨hi, _, _⟩ := run_refines hc ops hok [] inv_new habs hr
  refine ⟨hi.load, hi.len, ?_⟩
  intro i c hcc b hb
  obtain ⟨p, hp, hh⟩ := hi.keyed b (List.mem_flatten.2 ⟨c, List.mem_of_getElem? hcc, hb⟩)
  exact ⟨p, hp, hh, by rw [← hh]; exact hi.place i c hcc b hb⟩

/-- **C02.** Growing keeps every stored bin, once each, and makes the table larger; it fails exactly at
the last prime. -/
theorem C02_resize_preserves (s : HashSet U) :
    (s.size < 1610612741 → ∃ s', s.resize = some s') ∧
    (1610612741 ≤ s.size → s.resize = none) ∧
    ∀ s', s.resize = some s' → s'.table.flatten.Perm s.table.flatten ∧ s'.entries = s.entries ∧ s.size < s'.size := by
  refine ⟨?_, ?_, ?_⟩
  · intro hs
    obtain ⟨n, hn⟩ := nextPrime_some (s.size + 1) (by omega)
    simp only [resize, hn]; exact ⟨_, rfl⟩
  · intro hs
    cases hn : nextPrime (s.size + 1) with
    | none => simp only [resize, hn]
    | some n => have := nextPrime_ge hn; have := nextPrime_le hn; omega
  · intro s' hr
    unfold resize at hr
    split at hr
    · cases hr
    · rename_i n hn
      cases hr
      have hge := nextPrime_ge hn
      refine ⟨?_, rfl, hge⟩
      have := foldl_pushBin_perm n (by omega) s.table.flatten (List.replicate n []) (by simp)
      simpa using this

example : ∃ s', (HashSet.new : HashSet Nat).resize = some s' ∧ s'.size = 13 := ⟨_, rfl, rfl⟩

end Cm
