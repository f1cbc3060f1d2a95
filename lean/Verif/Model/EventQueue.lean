import Verif.Model.Bytes
/-
Model of `program/src/state/event_queue.rs`.
-/
namespace AOB

/-- `event_queue.rs` 22-38: `struct FillEvent`, also the generic event slot (100).
`padding` is `[u8; 6]`. -/
structure FillEvent where
  tag : Nat
  takerSide : Nat
  padding : Bytes
  quoteSize : Nat
  makerOrderId : Nat
  baseSize : Nat
  deriving DecidableEq, Repr

/-- `event_queue.rs` 48-62: `struct OutEvent`. `padding` is `[u8; 14]`. -/
structure OutEvent where
  tag : Nat
  side : Nat
  padding : Bytes
  orderId : Nat
  baseSize : Nat
  deriving DecidableEq, Repr

/-- `event_queue.rs` 95-98: `EventTag::Fill as u8`. -/
def TAG_FILL : Nat := 0
/-- `event_queue.rs` 95-98: `EventTag::Out as u8`. -/
def TAG_OUT : Nat := 1

/-- `bytemuck::cast_ref::<OutEvent, FillEvent>` (116) by `#[repr(C)]` layout: byte 0 tag, byte 1 side,
bytes 2-7 and 8-15 are `OutEvent::_padding` = `FillEvent::_padding` ++ `quote_size`, bytes 16-31 id,
bytes 32-39 base size. In `event_queue.rs`. -/
def OutEvent.castFill (o : OutEvent) : FillEvent :=
  { tag := o.tag, takerSide := o.side, padding := o.padding.take 6,
    quoteSize := ofLE (o.padding.drop 6), makerOrderId := o.orderId, baseSize := o.baseSize }

/-- `bytemuck::cast_ref::<FillEvent, OutEvent>` (268), same layout. In `event_queue.rs`. -/
def FillEvent.castOut (f : FillEvent) : OutEvent :=
  { tag := f.tag, side := f.takerSide, padding := f.padding ++ toLE 8 f.quoteSize,
    orderId := f.makerOrderId, baseSize := f.baseSize }

/-- `event_queue.rs` 106-111: `FillEvent::to_generic`. -/
def FillEvent.toGeneric (f : FillEvent) : FillEvent := { f with tag := TAG_FILL }
/-- `event_queue.rs` 113-118: `OutEvent::to_generic`. -/
def OutEvent.toGeneric (o : OutEvent) : FillEvent := ({ o with tag := TAG_OUT } : OutEvent).castFill

/-- `event_queue.rs` 66-91: `EventRef`, `FillEventRef`, `OutEventRef`. -/
inductive EventRef (C : Type) where
  | fill (event : FillEvent) (makerCallbackInfo takerCallbackInfo : C)
  | out (event : OutEvent) (callbackInfo : C)
  deriving DecidableEq, Repr

/-- `event_queue.rs` 126-132: `struct EventQueueHeader`. -/
structure EventQueueHeader where
  head : Nat
  count : Nat
  seqNum : Nat
  deriving DecidableEq, Repr

/-- `event_queue.rs` 143-147: `struct EventQueue`. -/
structure EventQueue (C : Type) where
  header : EventQueueHeader
  events : List FillEvent
  callbackInfos : List C
  deriving DecidableEq, Repr

/-- The two generic event types `push_back` is called with (`trait Event`, 102-118). In `event_queue.rs`. -/
inductive AnyEvent where
  | fill (e : FillEvent)
  | out (e : OutEvent)
  deriving DecidableEq, Repr

/-- `Event::to_generic` (106-118). In `event_queue.rs`. -/
def AnyEvent.toGeneric : AnyEvent → FillEvent
  | .fill e => e.toGeneric
  | .out e => e.toGeneric

/-- `Result<(), Ev>` of `push_back`. (`event_queue.rs` 183.) -/
inductive PushResult (C : Type) where
  | pushed (q : EventQueue C)
  | refused (event : AnyEvent)
  deriving DecidableEq, Repr

namespace EventQueue
variable {C : Type}

/-- `event_queue.rs` 245-247: `full`. -/
def full (q : EventQueue C) : Bool := q.header.count == q.events.length

/-- `if let Some(c) = info { self.callback_infos[i] = c.clone() }` (194-200). In `event_queue.rs`. -/
def storeInfo (infos : List C) (i : Nat) : Option C → Res (List C)
  | some c => setIdx infos i c
  | none => .ok infos

/-- `event_queue.rs` 178-203: `push_back`. -/
def pushBack (q : EventQueue C) (event : AnyEvent) (maker taker : Option C) : Res (PushResult C) :=
  if q.full then .ok (.refused event)
  else do
    let sum ← addU64 q.header.head q.header.count
    let eventIdx ← remU sum q.events.length
    let events ← setIdx q.events eventIdx event.toGeneric
    let count ← addU64 q.header.count 1
    let infos ← storeInfo q.callbackInfos (eventIdx * 2) maker
    let infos ← storeInfo infos (eventIdx * 2 + 1) taker
    .ok (.pushed { header := { q.header with count := count }, events := events,
                   callbackInfos := infos })

/-- `.map_err(|_| AoError::EventQueueFull)?` at the call sites in `orderbook.rs` (208-210, 240-242,
267-269, 331-333). -/
def push (q : EventQueue C) (event : AnyEvent) (maker taker : Option C) : Res (EventQueue C) := do
  match ← q.pushBack event maker taker with
  | .pushed q' => .ok q'
  | .refused _ => .error (.ao .eventQueueFull)

/-- `event_queue.rs` 239-243: `gen_seq_num`. -/
def genSeqNum (q : EventQueue C) : Res (Nat × EventQueue C) := do
  let next ← addU64 q.header.seqNum 1
  .ok (q.header.seqNum, { q with header := { q.header with seqNum := next } })

/-- `event_queue.rs` 229-237: `gen_order_id`; `!seq_num` is on `u64`. -/
def genOrderId (q : EventQueue C) (limitPrice : Nat) (side : Side) : Res (Nat × EventQueue C) := do
  let (seqNum, q) ← q.genSeqNum
  let upper := limitPrice <<< 64
  let lower := match side with
    | .bid => U64 - 1 - seqNum
    | .ask => seqNum
  .ok (upper ||| lower, q)

/-- `event_queue.rs` 259-272: `get_event`. -/
def getEvent (q : EventQueue C) (eventIdx : Nat) : Res (EventRef C) := do
  let event ← idx q.events eventIdx
  if event.tag = TAG_FILL then do
    let maker ← idx q.callbackInfos (2 * eventIdx)
    let taker ← idx q.callbackInfos (2 * eventIdx + 1)
    .ok (.fill event maker taker)
  else if event.tag = TAG_OUT then do
    let c ← idx q.callbackInfos (2 * eventIdx)
    .ok (.out event.castOut c)
  else .error .panic

/-- `event_queue.rs` 250-257: `peek_at`. -/
def peekAt (q : EventQueue C) (index : Nat) : Res (Option (EventRef C)) :=
  if q.header.count ≤ index then .ok none
  else do
    let sum ← addU64 q.header.head index
    let eventIdx ← remU sum q.events.length
    let e ← q.getEvent eventIdx
    .ok (some e)

/-- `event_queue.rs` 275-281: `pop_n`. -/
def popN (q : EventQueue C) (n : Nat) : Res (EventQueue C) := do
  let capped := min q.header.count n
  let count ← subU q.header.count capped
  let sum ← addU64 q.header.head capped
  let head ← remU sum q.events.length
  .ok { q with header := { q.header with count := count, head := head } }

/-- `event_queue.rs` 313-322: repeated `QueueIterator::next` with `remaining` steps left. -/
def iterFrom (q : EventQueue C) : Nat → Nat → Res (List (EventRef C))
  | 0, _ => .ok []
  | remaining + 1, currentIndex => do
    let sum ← addU64 q.header.head currentIndex
    let eventIdx ← remU sum q.events.length
    let e ← q.getEvent eventIdx
    let es ← iterFrom q remaining (currentIndex + 1)
    .ok (e :: es)

/-- `event_queue.rs` 284-290: `iter()`, collected. -/
def iter (q : EventQueue C) : Res (List (EventRef C)) := q.iterFrom q.header.count 0

/-- `event_queue.rs` 293-295: `is_empty`. -/
def isEmpty (q : EventQueue C) : Bool := q.header.count == 0

/-- `event_queue.rs` 298-300: `len`. -/
def len (q : EventQueue C) : Nat := q.header.count

/-- The queue found in a zeroed account with `cap` event slots (`from_buffer`, 151-174). In `event_queue.rs`. -/
def zeroed (cap : Nat) (c0 : C) : EventQueue C :=
  { header := ⟨0, 0, 0⟩
    events := List.replicate cap ⟨0, 0, [0, 0, 0, 0, 0, 0], 0, 0, 0⟩
    callbackInfos := List.replicate (2 * cap) c0 }

end EventQueue
end AOB
