import Verif.Spec.History
/-
A reader who sees only what is made public about each instruction, and keeps a copy of the book without knowing
how orders are matched.
-/
namespace AOB
variable {C : Type}

/-- What is made public about a successful instruction: the instruction, the summary it returned (if any) and the events
it appended to the queue. -/
structure Notice (C : Type) where
  instr : Instr C
  answer : Option OrderSummary
  events : List (Event C)
  deriving DecidableEq, Repr

/-- The notices of a history, oldest first; a failed instruction gives none. -/
def noticesOf [CallbackInfo C] (m : Market C) : List (Instr C) → List (Notice C)
  | [] => []
  | i :: is =>
    match m.exec i with
    | .ok (answer, m') => ⟨i, answer, emitted m m'⟩ :: noticesOf m' is
    | .error _ => noticesOf m is

/-- The reader takes note of an event: a fill makes an order smaller, an out event removes it. -/
def hearEvent (book : List (Order C)) : Event C → List (Order C)
  | .fill _ id base _ _ _ => book.map (fun o => if o.id = id then { o with qty := o.qty - base } else o)
  | .out _ id _ _ => book.filter (fun o => decide (o.id ≠ id))

/-- The reader takes note of an instruction: first its events, then the order reported as posted is added, or the
cancelled orders are removed. -/
def hear (book : List (Order C)) (n : Notice C) : List (Order C) :=
  let book := n.events.foldl hearEvent book
  match n.instr, n.answer with
  | .newOrder p, some s =>
    match s.postedOrderId with
    | some id => book ++ [⟨id, s.totalBaseQtyPosted, p.callbackInfo⟩]
    | none => book
  | .cancelOrder id, _ => book.filter (fun o => decide (o.id ≠ id))
  | .massCancelOrders ids, _ => book.filter (fun o => decide (o.id ∉ ids))
  | _, _ => book

/-- `a` comes no later than `b` on this side: higher ids first among bids, lower ids first among asks. -/
def Side.ranks (side : Side) (a b : Order C) : Bool :=
  match side with
  | .bid => decide (b.id ≤ a.id)
  | .ask => decide (a.id ≤ b.id)

/-- One side of the reader's copy, best order first. -/
def readerSide (book : List (Order C)) (side : Side) : List (Order C) :=
  (book.filter (fun o => decide (sideOfId o.id = side))).mergeSort (side.ranks)

end AOB
