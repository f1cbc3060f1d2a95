import Verif.Spec.History
/-
Vocabulary for comparing two executions: with and without cranking, with users renamed, split in two.
-/
namespace AOB
variable {C D : Type}

/-- Two configurations that differ at most in the size of the event queue and in unused bytes. -/
structure SameRules (c d : Config) : Prop where
  minBase : c.minBase = d.minBase
  tick : c.tick = d.tick
  bids : c.capBids = d.capBids
  asks : c.capAsks = d.capAsks

/-- Two markets with the same resting orders and the same next sequence number; nothing is said about the pending
events. -/
structure SameTrading (m1 m2 : Market C) : Prop where
  bids : resting m1 .bid = resting m2 .bid
  asks : resting m1 .ask = resting m2 .ask
  seq : m1.queue.header.seqNum = m2.queue.header.seqNum

/-- The instruction only moves the event queue along. -/
def Instr.isCrank : Instr C → Bool
  | .consumeEvents _ => true
  | _ => false

variable [CallbackInfo C] [CallbackInfo D]

/-- `N` holds of every instruction of the history and the market it is given to. -/
def Along (N : Market C → Instr C → Prop) (m : Market C) : List (Instr C) → Prop
  | [] => True
  | i :: is => N m i ∧ Along N (m.step i) is

/-- No instruction of the history is refused because the event queue is full. -/
def NeverFull (m : Market C) (is : List (Instr C)) : Prop :=
  Along (fun m i => m.exec i ≠ .error (.ao .eventQueueFull)) m is

/-- The instruction does not meet the limits set by the tick size and by the sizes of the accounts: a `new_order` is not
refused for its price nor for a full event queue, and the side it is on has a free place. -/
def Unhindered (c : Config) (m : Market C) : Instr C → Prop
  | .newOrder p => m.newOrder p ≠ .error (.ao .invalidLimitPrice) ∧ m.newOrder p ≠ .error (.ao .eventQueueFull) ∧
      (resting m p.side).length < c.cap p.side
  | _ => True

/-! ### Renaming users -/

/-- `f` renames callback infos without merging or splitting users: two infos name the same user (have the same
callback id) before exactly if they do after. -/
def Renames (f : C → D) : Prop :=
  ∀ x y, CallbackInfo.asCallbackId (f x) = CallbackInfo.asCallbackId (f y) ↔
    CallbackInfo.asCallbackId x = CallbackInfo.asCallbackId y

/-- `f` keeps what the order needs to know of the users: with `DecrementTake` nothing, and otherwise which callback infos
have the callback id of the order. -/
def NewOrderParams.Keeps (f : C → D) (p : NewOrderParams C) : Prop :=
  p.selfTradeBehavior = .decrementTake ∨ ∀ y,
    CallbackInfo.asCallbackId (f p.callbackInfo) = CallbackInfo.asCallbackId (f y) ↔
      CallbackInfo.asCallbackId p.callbackInfo = CallbackInfo.asCallbackId y

/-- The same for an instruction; only new orders need to know anything. -/
def Instr.Keeps (f : C → D) : Instr C → Prop
  | .newOrder p => p.Keeps f
  | _ => True

omit [CallbackInfo C] [CallbackInfo D]

def NewOrderParams.rename (f : C → D) (p : NewOrderParams C) : NewOrderParams D :=
  { p with callbackInfo := f p.callbackInfo }

def Instr.rename (f : C → D) : Instr C → Instr D
  | .newOrder p => .newOrder (p.rename f)
  | .cancelOrder id => .cancelOrder id
  | .massCancelOrders ids => .massCancelOrders ids
  | .consumeEvents n => .consumeEvents n

def Order.rename (f : C → D) (o : Order C) : Order D := ⟨o.id, o.qty, f o.cb⟩

def Event.rename (f : C → D) : Event C → Event D
  | .fill s id b q m t => .fill s id b q (f m) (f t)
  | .out s id b c => .out s id b (f c)

/-! ### One order given in two parts -/

/-- The first part of an order: at most `n` matching rounds, and nothing is posted. -/
def NewOrderParams.first (p : NewOrderParams C) (n : Nat) : NewOrderParams C :=
  { p with matchLimit := n, postAllowed := false }

/-- The second part: at most `n` rounds, with what the first part, answered by `s`, has left of the caps. -/
def NewOrderParams.second (p : NewOrderParams C) (n : Nat) (s : OrderSummary) : NewOrderParams C :=
  { p with matchLimit := n, maxBaseQty := p.maxBaseQty - s.totalBaseQty,
           maxQuoteQty := p.maxQuoteQty - s.totalQuoteQty }

/-- The summaries of the two parts together: totals add up, what is posted is posted by the second. -/
def OrderSummary.plus (s1 s2 : OrderSummary) : OrderSummary :=
  ⟨s2.postedOrderId, s1.totalBaseQty + s2.totalBaseQty, s1.totalQuoteQty + s2.totalQuoteQty, s2.totalBaseQtyPosted⟩

end AOB
