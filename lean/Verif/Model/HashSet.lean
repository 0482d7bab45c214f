/-!
# Model of `hashset.go`

A chained hash set. The pool of unused bins (`pooledBins`, hashset.go:20, 168-188) is modelled
separately in `Verif/Model/HashSetHeap.lean`; here `getUnusedBin` is a fresh bin.
-/
namespace Cm

/-- One bin of a chain: hashset.go:6-10 (`next` is the position in the list). -/
structure HBin (U : Type) where
  hash : Nat
  elt : U
deriving Repr, DecidableEq

/-- hashset.go:13-21. `size` is kept separate from `table.length` as in the code; that they agree is
an invariant. -/
structure HashSet (U : Type) where
  size : Nat
  table : List (List (HBin U))
  entries : Nat
deriving Repr, DecidableEq

namespace HashSet

/-- hashset.go:190-221 -/
def primes : List Nat :=
  [5, 13, 23, 47, 97, 193, 389, 769, 1543, 3079, 6151, 12289, 24593, 49157, 98317, 196613, 393241,
   786433, 1572869, 3145739, 6291469, 12582917, 25165843, 50331653, 100663319, 201326611,
   402653189, 805306457, 1610612741, 0]

/-- The loop of hashset.go:225-228 over the remaining primes; `none` is the index panic. -/
def nextPrimeGo (n : Nat) : List Nat → Option Nat
  | [] => none
  | p :: ps => if n > p then nextPrimeGo n ps else some p

/-- hashset.go:223-229 -/
def nextPrime (n : Nat) : Option Nat := nextPrimeGo n primes

/-- hashset.go:24-31; `nextPrime 0 = 5`. -/
def new {U : Type} : HashSet U := { size := 5, table := List.replicate 5 [], entries := 0 }

variable {T U : Type}

/-- Push a bin at the head of the chain of its hash: hashset.go:43-45 and 79-80. -/
def pushBin (size : Nat) (table : List (List (HBin U))) (b : HBin U) : List (List (HBin U)) :=
  table.modify (b.hash % size) (b :: ·)

/-- hashset.go:33-53: bins are moved in table order, chain order. -/
def resize (s : HashSet U) : Option (HashSet U) :=
  match nextPrime (s.size + 1) with
  | none => none
  | some newSize =>
    some { s with
      size := newSize
      table := s.table.flatten.foldl (pushBin newSize) (List.replicate newSize []) }

/-- The chain at `hash % size`: hashset.go:62-65. `none` is the index panic. -/
def chain? (s : HashSet U) (hash : Nat) : Option (List (HBin U)) := s.table[hash % s.size]?

/-- hashset.go:61-88. `u` is the value `transform(ptr)` would produce; it is used only when no
equal element is present. -/
def insert (isEqual : T → U → Bool) (s : HashSet U) (hash : Nat) (ptr : T) (u : U) :
    Option (HashSet U × U) := do
  let ch ← s.chain? hash
  match ch.find? (fun b => isEqual ptr b.elt) with
  | some b => return (s, b.elt)
  | none =>
    let s' : HashSet U := { s with table := pushBin s.size s.table ⟨hash, u⟩, entries := s.entries + 1 }
    if s'.entries ≥ s'.size then
      let s'' ← s'.resize
      return (s'', u)
    else
      return (s', u)

/-- hashset.go:91-117. The zero value result for an absent element is `none`. -/
def remove (isEqual : T → U → Bool) (s : HashSet U) (hash : Nat) (ptr : T) :
    Option (HashSet U × Option U) := do
  let ch ← s.chain? hash
  match ch.find? (fun b => isEqual ptr b.elt) with
  | some b =>
    return ({ s with
              table := s.table.modify (hash % s.size) (fun c => c.eraseP (fun b => isEqual ptr b.elt))
              entries := s.entries - 1 }, some b.elt)
  | none => return (s, none)

/-- hashset.go:120-132 -/
def find (isEqual : T → U → Bool) (s : HashSet U) (hash : Nat) (ptr : T) : Option (Option U) := do
  let ch ← s.chain? hash
  return (ch.find? (fun b => isEqual ptr b.elt)).map HBin.elt

/-- hashset.go:135-143: the elements in the order `f` is called on them. -/
def each (s : HashSet U) : List U := s.table.flatten.map HBin.elt

/-- One chain of hashset.go:151-164 with an effectful `f`: the kept bins, the number of removed bins and the
final state of the effects. -/
def filterChain {σ : Type} (f : U → σ → Bool × σ) : List (HBin U) → σ → List (HBin U) × Nat × σ
  | [], w => ([], 0, w)
  | b :: bs, w =>
    let r := f b.elt w
    let q := filterChain f bs r.2
    if r.1 then (b :: q.1, q.2.1, q.2.2) else (q.1, q.2.1 + 1, q.2.2)

/-- The outer loop of hashset.go:148. -/
def filterTable {σ : Type} (f : U → σ → Bool × σ) :
    List (List (HBin U)) → σ → List (List (HBin U)) × Nat × σ
  | [], w => ([], 0, w)
  | c :: cs, w =>
    let r := filterChain f c w
    let q := filterTable f cs r.2.2
    (r.1 :: q.1, r.2.1 + q.2.1, q.2.2)

/-- hashset.go:146-166 -/
def filter {σ : Type} (f : U → σ → Bool × σ) (s : HashSet U) (w : σ) : HashSet U × σ :=
  let r := filterTable f s.table w
  ({ s with table := r.1, entries := s.entries - r.2.1 }, r.2.2)

/-- hashset.go:56-58 -/
def count (s : HashSet U) : Nat := s.entries

/-- One operation of a client. -/
inductive Op (T U : Type) where
  | insert (ptr : T) (u : U)
  | remove (ptr : T)
  | find (ptr : T)
  | each
  | filter (f : U → Bool)
  | count

/-- What the client observes. -/
inductive Out (U : Type) where
  | elt (e : Option U)
  | elts (l : List U)
  | num (n : Nat)
  | unit

/-- A client always passes the hash `h ptr` for `ptr`. `none` is a panic. -/
def step (isEqual : T → U → Bool) (h : T → Nat) (s : HashSet U) : Op T U → Option (HashSet U × Out U)
  | .insert p u => (s.insert isEqual (h p) p u).map fun r => (r.1, .elt (some r.2))
  | .remove p => (s.remove isEqual (h p) p).map fun r => (r.1, .elt r.2)
  | .find p => (s.find isEqual (h p) p).map fun r => (s, .elt r)
  | .each => some (s, .elts s.each)
  | .filter f => some ((s.filter (σ := Unit) (fun u w => (f u, w)) ()).1, .unit)
  | .count => some (s, .num s.count)

def run (isEqual : T → U → Bool) (h : T → Nat) : HashSet U → List (Op T U) → Option (HashSet U × List (Out U))
  | s, [] => some (s, [])
  | s, op :: ops => do
    let (s', o) ← step isEqual h s op
    let (s'', os) ← run isEqual h s' ops
    return (s'', o :: os)

end HashSet
end Cm
