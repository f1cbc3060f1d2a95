import Verif.Spec.History
/-
The life of one order: everything an observer notes along a history, in the order in which it happens.
-/
namespace AOB
variable {C : Type} [CallbackInfo C]

/-- One note of an observer. -/
inductive Mark (C : Type) where
  /-- A summary reported this order as posted. -/
  | posted (o : Order C)
  /-- This event was written. -/
  | event (e : Event C)
  /-- A cancellation took this order off the book. -/
  | cancelled (o : Order C)
  deriving DecidableEq, Repr

/-- The id a note is about. -/
def Mark.id : Mark C → Nat
  | .posted o => o.id
  | .event e => e.id
  | .cancelled o => o.id

/-- The notes of one transaction: the events, which the matching writes, come before the posting of the rest. -/
def Log.marks (l : Log C) : List (Mark C) :=
  l.events.map .event ++ (l.posted.map .posted ++ l.cancelled.map .cancelled)

/-- The notes of a history, oldest first. -/
def story (m : Market C) : List (Instr C) → List (Mark C)
  | [] => []
  | i :: is => (stepLog m i).marks ++ story (m.step i) is

/-- The kinds of notes. -/
def Mark.posted? : Mark C → Option (Order C)
  | .posted o => some o
  | _ => none

def Mark.event? : Mark C → Option (Event C)
  | .event e => some e
  | _ => none

def Mark.cancelled? : Mark C → Option (Order C)
  | .cancelled o => some o
  | _ => none

/-- The notes about one id. -/
def notesOf (id : Nat) (l : List (Mark C)) : List (Mark C) := l.filter (fun k => k.id == id)

/-- What the notes about one id look like when the market is `m`: there are none and nothing rests under it, or
the order `o` was posted, then traded in `fs` with takers of the other side at its own price, and then it still rests,
or it was given back by one out event or by one cancellation; what rests or was given back is what the trades left. -/
def LifeOf (m : Market C) (id : Nat) (l : List (Mark C)) : Prop :=
  (l = [] ∧ ∀ x ∈ allResting m, x.id ≠ id) ∨
  ∃ (o : Order C) (fs : List (Event C)), o.id = id ∧
    (∀ f ∈ fs, ∃ b t, 0 < b ∧ 0 < worth (sideOfId id).opposite b (id / 2 ^ 64) ∧
      f = .fill (sideOfId id).opposite id b (worth (sideOfId id).opposite b (id / 2 ^ 64)) o.cb t) ∧
    sumBase fs ≤ o.qty ∧
    ((l = .posted o :: fs.map .event ∧ ⟨id, o.qty - sumBase fs, o.cb⟩ ∈ allResting m) ∨
     ((∀ x ∈ allResting m, x.id ≠ id) ∧
      (l = .posted o :: (fs.map .event ++ [.event (.out (sideOfId id) id (o.qty - sumBase fs) o.cb)]) ∨
       l = .posted o :: (fs.map .event ++ [.cancelled ⟨id, o.qty - sumBase fs, o.cb⟩]))))

end AOB
