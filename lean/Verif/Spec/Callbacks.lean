import Verif.Model.Space

/-! # Which sequences of collision callbacks are in order

Per unordered pair of shapes: `Begin` when they start to touch, then `PreSolve` and `PostSolve` while they touch and are
not rejected, then `Separate`, then `Begin` again. -/
namespace Cm
namespace Spec

/-- Where a pair of shapes is in the sequence. -/
inductive Phase where
  | apart | touching | rejected
deriving DecidableEq, Repr

/-- The two shapes of a call. -/
def evPair : Sp.Ev → Nat × Nat
  | .begin x y _ => (x, y)
  | .pre x y _ => (x, y)
  | .post x y => (x, y)
  | .separate x y => (x, y)

/-- The call is about this pair, in either order. -/
def about (e : Sp.Ev) (x y : Nat) : Bool := decide (evPair e = (x, y)) || decide (evPair e = (y, x))

/-- One call about the pair; `none` if it is out of order. -/
def Phase.next : Phase → Sp.Ev → Option Phase
  | .apart, .begin _ _ ok => some (if ok then .touching else .rejected)
  | .touching, .pre _ _ ok => some (if ok then .touching else .rejected)
  | .touching, .post _ _ => some .touching
  | .touching, .separate _ _ => some .apart
  | .rejected, .separate _ _ => some .apart
  | _, _ => none

/-- Where the pair is after the calls, the latest first; `none` if some call was out of order. -/
def phase (x y : Nat) : List Sp.Ev → Option Phase
  | [] => some .apart
  | e :: l => match phase x y l with
    | none => none
    | some p => if about e x y then p.next e else some p

theorem about_comm (e : Sp.Ev) (x y : Nat) : about e x y = about e y x := by
  simp only [about, Bool.or_comm]

theorem phase_comm (x y : Nat) : ∀ l : List Sp.Ev, phase x y l = phase y x l
  | [] => rfl
  | e :: l => by simp only [phase, phase_comm x y l, about_comm e x y]

theorem phase_other {x y : Nat} {e : Sp.Ev} {l : List Sp.Ev} (h : about e x y = false) : phase x y (e :: l) = phase x y l := by
  simp only [phase]
  cases phase x y l <;> simp [h]

theorem phase_next {x y : Nat} {e : Sp.Ev} {l : List Sp.Ev} {p : Phase} (h : about e x y = true) (hp : phase x y l = some p) :
    phase x y (e :: l) = p.next e := by
  simp only [phase, hp, h, if_true]

/-- The calls to be made for a pair found touching, the latest first, when the pair is at `p`. -/
def calls (p : Phase) (h : Sp.Hit) : List Sp.Ev :=
  match p with
  | .rejected => []
  | .touching => [.pre h.x h.y (!h.ignore)]
  | .apart => if h.begin then [.pre h.x h.y (!h.ignore), .begin h.x h.y true] else [.begin h.x h.y false]

/-- The pair is to be solved: accepted by `Begin` when it started to touch, accepted by `PreSolve` now, neither shape is
a sensor and at least one body is dynamic. -/
def accepts (p : Phase) (h : Sp.Hit) (sensor immobile : Bool) : Bool :=
  (match p with
    | .rejected => false
    | .touching => true
    | .apart => h.begin) && !h.ignore && h.pre && !sensor && !immobile

end Spec
end Cm
