import Verif.Model.HashSet
/-!
# The hash set with its bins in memory: hashset.go

Bins are numbered by their addresses; the fields of all bins are kept in one function per field. Loops along `next` pointers have as
fuel the number of bins ever made and one more: a walk that takes longer has met a bin twice and does not end (`none`).
`elt = none` is the zero value a recycled bin gets; comparing with it, or passing it to a callback, is `none` too.
-/
namespace Cm
namespace HashHeap
open HashSet (nextPrime Op Out)
variable {T U : Type}

/-- hashset.go:6-21 -/
structure HS (U : Type) where
  size : Nat
  entries : Nat
  table : Nat → Option Nat
  pooled : Option Nat
  elt : Nat → Option U
  hash : Nat → Nat
  next : Nat → Option Nat
  made : Nat

/-- `everything.go:11` -/
def pooledBufferSize : Nat := 1024

/-- Assignment to one place of an array or to a field of one bin. -/
def put {α : Type} (f : Nat → α) (a : Nat) (v : α) : Nat → α := fun x => if x = a then v else f x

/-- hashset.go:24-31 -/
def new : HS U := ⟨5, 0, fun _ => none, none, fun _ => none, fun _ => 0, fun _ => none, 0⟩

/-- `recycle`: hashset.go:168-173. -/
def recycle (s : HS U) (a : Nat) : HS U :=
  { s with next := put s.next a s.pooled, pooled := some a, elt := put s.elt a none }

/-- `&HashSetBin[U]{}`: hashset.go:184, 187. -/
def alloc (s : HS U) : HS U :=
  { s with elt := put s.elt s.made none, hash := put s.hash s.made 0, next := put s.next s.made none, made := s.made + 1 }

/-- The loop hashset.go:183-185. -/
def refill : Nat → HS U → HS U
  | 0, s => s
  | n + 1, s => refill n (recycle (alloc s) s.made)

/-- `getUnusedBin`: hashset.go:175-188. -/
def getUnusedBin (s : HS U) : HS U × Nat :=
  match s.pooled with
  | some a => ({ s with pooled := s.next a }, a)
  | none => let s1 := refill pooledBufferSize s; (alloc s1, s1.made)

/-- The search loops: hashset.go:65-68, 97-100, 123-125. The bin found and the bin before it, whose `next` is `prevPtr`
(`none`: `prevPtr` is the place in the table). -/
def search (eq : U → Bool) (s : HS U) : Nat → Option Nat → Option Nat → Option (Option Nat × Option Nat)
  | 0, _, _ => none
  | _ + 1, none, prev => some (none, prev)
  | n + 1, some a, prev => match s.elt a with
    | none => none
    | some e => if eq e then some (some a, prev) else search eq s n (s.next a) (some a)

/-- `*prevPtr = x`: hashset.go:105, 157. -/
def setPrev (s : HS U) (i : Nat) (prev x : Option Nat) : HS U :=
  match prev with
  | none => { s with table := put s.table i x }
  | some q => { s with next := put s.next q x }

/-- The inner loop of `resize`: hashset.go:40-47, on the links and the new table. -/
def moveChain (hash : Nat → Nat) (newSize : Nat) : Nat → Option Nat → (Nat → Option Nat) × (Nat → Option Nat) → Option ((Nat → Option Nat) × (Nat → Option Nat))
  | 0, _, _ => none
  | _ + 1, none, m => some m
  | n + 1, some a, m => moveChain hash newSize n (m.1 a) (put m.1 a (m.2 (hash a % newSize)), put m.2 (hash a % newSize) (some a))

/-- The outer loop of `resize`: hashset.go:37-49; `n` places are left from place `i` on. -/
def moveAll (s : HS U) (newSize : Nat) : Nat → Nat → (Nat → Option Nat) × (Nat → Option Nat) → Option ((Nat → Option Nat) × (Nat → Option Nat))
  | 0, _, m => some m
  | n + 1, i, m => match moveChain s.hash newSize (s.made + 1) (s.table i) m with
    | none => none
    | some m' => moveAll s newSize n (i + 1) m'

/-- `resize`: hashset.go:33-53. -/
def resize (s : HS U) : Option (HS U) :=
  match nextPrime (s.size + 1) with
  | none => none
  | some newSize => match moveAll s newSize s.size 0 (s.next, fun _ => none) with
    | none => none
    | some m => some { s with next := m.1, table := m.2, size := newSize }

/-- `Insert`: hashset.go:61-88. -/
def insert (isEqual : T → U → Bool) (s : HS U) (hash : Nat) (ptr : T) (u : U) : Option (HS U × U) :=
  let idx := hash % s.size
  match search (isEqual ptr) s (s.made + 1) (s.table idx) none with
  | none => none
  | some (some a, _) => match s.elt a with
    | none => none
    | some e => some (s, e)
  | some (none, _) =>
    let g := getUnusedBin s
    let a := g.2
    let s1 : HS U := { g.1 with hash := put g.1.hash a hash, elt := put g.1.elt a (some u), next := put g.1.next a (g.1.table idx),
                                table := put g.1.table idx (some a), entries := g.1.entries + 1 }
    if s1.entries ≥ s1.size then
      match resize s1 with
      | none => none
      | some s2 => some (s2, u)
    else some (s1, u)

/-- `Remove`: hashset.go:91-117. -/
def remove (isEqual : T → U → Bool) (s : HS U) (hash : Nat) (ptr : T) : Option (HS U × Option U) :=
  let idx := hash % s.size
  match search (isEqual ptr) s (s.made + 1) (s.table idx) none with
  | none => none
  | some (none, _) => some (s, none)
  | some (some a, prev) =>
    let s1 := setPrev s idx prev (s.next a)
    some (recycle { s1 with entries := s1.entries - 1 } a, s1.elt a)

/-- `Find`: hashset.go:120-132. -/
def find (isEqual : T → U → Bool) (s : HS U) (hash : Nat) (ptr : T) : Option (Option U) :=
  match search (isEqual ptr) s (s.made + 1) (s.table (hash % s.size)) none with
  | none => none
  | some (none, _) => some none
  | some (some a, _) => some (s.elt a)

/-- The inner loop of `Each`: hashset.go:137-141. -/
def eachChain (s : HS U) : Nat → Option Nat → Option (List U)
  | 0, _ => none
  | _ + 1, none => some []
  | n + 1, some a => match s.elt a with
    | none => none
    | some e => (eachChain s n (s.next a)).map (e :: ·)

/-- The outer loop of `Each`: hashset.go:136-142. -/
def eachAll (s : HS U) : Nat → Nat → Option (List U)
  | 0, _ => some []
  | n + 1, i => match eachChain s (s.made + 1) (s.table i) with
    | none => none
    | some l => (eachAll s n (i + 1)).map (l ++ ·)

/-- The inner loop of `Filter`: hashset.go:151-164. -/
def filterChain (f : U → Bool) (i : Nat) : Nat → Option Nat → Option Nat → HS U → Option (HS U)
  | 0, _, _, _ => none
  | _ + 1, none, _, s => some s
  | n + 1, some a, prev, s => match s.elt a with
    | none => none
    | some e =>
      if f e then filterChain f i n (s.next a) (some a) s
      else
        let s1 := setPrev s i prev (s.next a)
        filterChain f i n (s.next a) prev (recycle { s1 with entries := s1.entries - 1 } a)

/-- The outer loop of `Filter`: hashset.go:148-165. -/
def filterAll (f : U → Bool) : Nat → Nat → HS U → Option (HS U)
  | 0, _, s => some s
  | n + 1, i, s => match filterChain f i (s.made + 1) (s.table i) none s with
    | none => none
    | some s' => filterAll f n (i + 1) s'

/-- A client's call, as `HashSet.step`. -/
def step (isEqual : T → U → Bool) (h : T → Nat) (s : HS U) : Op T U → Option (HS U × Out U)
  | .insert p u => (insert isEqual s (h p) p u).map fun r => (r.1, .elt (some r.2))
  | .remove p => (remove isEqual s (h p) p).map fun r => (r.1, .elt r.2)
  | .find p => (find isEqual s (h p) p).map fun r => (s, .elt r)
  | .each => (eachAll s s.size 0).map fun l => (s, .elts l)
  | .filter f => (filterAll f s.size 0 s).map fun s' => (s', .unit)
  | .count => some (s, .num s.entries)

def run (isEqual : T → U → Bool) (h : T → Nat) : HS U → List (Op T U) → Option (HS U × List (Out U))
  | s, [] => some (s, [])
  | s, op :: ops => do
    let (s', o) ← step isEqual h s op
    let (s'', os) ← run isEqual h s' ops
    return (s'', o :: os)

end HashHeap
end Cm
