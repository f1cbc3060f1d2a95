import Verif.Spec.Types
/-
Sequences of operations on one slab and on one event queue, and what they should do: a bag of orders and a FIFO list.
-/
namespace AOB
variable {C : Type}

/-! ### Slab -/

/-- What can be asked of a slab: insert a leaf and write its callback info (as
`orderbook.rs` 258-268 does), change the quantity of the leaf found under a key, remove a key. -/
inductive SOp (C : Type) where
  | insert (key qty : Nat) (cb : C)
  | update (key qty : Nat)
  | remove (key : Nat)
  deriving DecidableEq, Repr

/-- What the caller of an operation is told. -/
inductive SResult (C : Type) where
  | inserted
  | replaced (oldQty : Nat)
  | full
  | updated (found : Bool)
  | removed (found : Option (Order C))
  | panicked
  | other
  deriving DecidableEq, Repr

/-- Keys are 128-bit integers. -/
def SOp.Ok : SOp C → Prop
  | .insert k _ _ => k < 2 ^ 128
  | .update k _ => k < 2 ^ 128
  | .remove _ => True

/-- `insert_leaf` followed by `*get_callback_info_mut(h) = cb`. -/
def Slab.put (s : Slab C) (key qty : Nat) (cb : C) : Res (Option LeafNode × Slab C) := do
  let r ← s.insertLeaf ⟨key, qty⟩
  let s ← r.2.setCallbackInfo r.1.1 cb
  .ok (r.1.2, s)

/-- `find_by_key` followed by `set_base_quantity`. -/
def Slab.requantify (s : Slab C) (key qty : Nat) : Res (Bool × Slab C) := do
  let r ← s.findByKey key
  match r with
  | none => .ok (false, s)
  | some h => do
      let s ← s.setBaseQuantity h qty
      .ok (true, s)

/-- One operation of the modelled code. A failing operation leaves the slab as it was (the runtime
discards the writes of a failed instruction). -/
def Slab.apply (s : Slab C) : SOp C → SResult C × Slab C
  | .insert k q c =>
    match s.put k q c with
    | .ok (none, s') => (.inserted, s')
    | .ok (some l, s') => (.replaced l.baseQuantity, s')
    | .error (.ao .slabOutOfSpace) => (.full, s)
    | .error .panic => (.panicked, s)
    | .error _ => (.other, s)
  | .update k q =>
    match s.requantify k q with
    | .ok (b, s') => (.updated b, s')
    | .error .panic => (.panicked, s)
    | .error _ => (.other, s)
  | .remove k =>
    match s.removeByKey k with
    | .ok (none, s') => (.removed none, s')
    | .ok (some (l, c), s') => (.removed (some ⟨l.orderId, l.baseQuantity, c⟩), s')
    | .error .panic => (.panicked, s)
    | .error _ => (.other, s)

/-- A sequence of operations, with the list of answers. -/
def Slab.applyAll (s : Slab C) : List (SOp C) → List (SResult C) × Slab C
  | [] => ([], s)
  | op :: ops => ((s.apply op).1 :: ((s.apply op).2.applyAll ops).1, ((s.apply op).2.applyAll ops).2)

/-- The specification: a bag of at most `slots` orders, in no particular order, one per id. -/
def bagApply (slots : Nat) (l : List (Order C)) : SOp C → SResult C × List (Order C)
  | .insert k q c =>
    match l.find? (fun o => o.id = k) with
    | some old => (.replaced old.qty, ⟨k, q, c⟩ :: l.filter (fun o => o.id ≠ k))
    | none => if l.length < slots then (.inserted, ⟨k, q, c⟩ :: l) else (.full, l)
  | .update k q =>
    match l.find? (fun o => o.id = k) with
    | some old => (.updated true, ⟨k, q, old.cb⟩ :: l.filter (fun o => o.id ≠ k))
    | none => (.updated false, l)
  | .remove k =>
    match l.find? (fun o => o.id = k) with
    | some old => (.removed (some old), l.filter (fun o => o.id ≠ k))
    | none => (.removed none, l)

/-- A sequence of operations on the specification. -/
def bagApplyAll (slots : Nat) (l : List (Order C)) : List (SOp C) → List (SResult C) × List (Order C)
  | [] => ([], l)
  | op :: ops =>
    ((bagApply slots l op).1 :: (bagApplyAll slots (bagApply slots l op).2 ops).1,
     (bagApplyAll slots (bagApply slots l op).2 ops).2)

/-- The answers agree: equal, except that the code may panic where the specification says that the
key to remove is missing. -/
def Agrees (code spec : SResult C) : Prop := code = spec ∨ (code = .panicked ∧ spec = .removed none)

/-- The slabs obtained from a zeroed account of `cap + 1` leaf slots by any sequence of operations.
`cap < 2 ^ 31` since handles are 32-bit with the top bit as inner-node flag; a Solana account of
10 MiB is far below that. -/
def SReach (cap : Nat) (c0 : C) (ops : List (SOp C)) (s : Slab C) : Prop :=
  cap < 2 ^ 31 ∧ (∀ op ∈ ops, op.Ok) ∧ s = ((Slab.zeroed cap c0).applyAll ops).2

/-- The bag of orders a user expects after the operations. -/
def bagOf (cap : Nat) (ops : List (SOp C)) : List (Order C) := (bagApplyAll (cap + 1) [] ops).2

/-- The answers a user expects. -/
def answersOf (cap : Nat) (ops : List (SOp C)) : List (SResult C) := (bagApplyAll (cap + 1) [] ops).1

/-- The bits at which `k` parts from some key of `ks`: that key has the other bit there, and the same bits above. -/
def partings (ks : List Nat) (k : Nat) : List Nat :=
  (List.range 128).filter fun b => ks.any fun j => decide (k / 2 ^ (b + 1) = j / 2 ^ (b + 1) ∧ k / 2 ^ b ≠ j / 2 ^ b)

/-! ### Event queue -/

/-- The operations on the queue, with the callback infos its callers supply: both for a fill, one for an out. -/
inductive QOp (C : Type) where
  | fill (e : FillEvent) (maker taker : C)
  | out (e : OutEvent) (owner : C)
  | pop (n : Nat)

/-- The padding of an `OutEvent` is 14 bytes. -/
def QOp.Ok : QOp C → Prop
  | .fill _ _ _ => True
  | .out e _ => e.padding.length = 14
  | .pop _ => True

/-- One operation; a refused event leaves the queue as it was. -/
def EventQueue.apply (q : EventQueue C) : QOp C → Res (EventQueue C)
  | .fill e m t => do
    match ← q.pushBack (.fill e) (some m) (some t) with
    | .pushed q' => .ok q'
    | .refused _ => .ok q
  | .out e c => do
    match ← q.pushBack (.out e) (some c) none with
    | .pushed q' => .ok q'
    | .refused _ => .ok q
  | .pop n => q.popN n

def EventQueue.applyAll (q : EventQueue C) : List (QOp C) → Res (EventQueue C)
  | [] => .ok q
  | op :: ops => do
    let q' ← q.apply op
    q'.applyAll ops

/-- A FIFO queue of at most `cap` entries, as a list. The tag of a stored event says what it is. -/
def fifo (cap : Nat) (l : List (EventRef C)) : QOp C → List (EventRef C)
  | .fill e m t => if l.length < cap then l ++ [.fill { e with tag := 0 } m t] else l
  | .out e c => if l.length < cap then l ++ [.out { e with tag := 1 } c] else l
  | .pop n => l.drop n

/-- `q` is what `cap` event slots hold after the operations `ops` on a zeroed account. -/
def QReach (cap : Nat) (ops : List (QOp C)) (q : EventQueue C) : Prop :=
  0 < cap ∧ cap ≤ 2 ^ 62 ∧ (∀ op ∈ ops, op.Ok) ∧ ∃ c0, (EventQueue.zeroed cap c0).applyAll ops = .ok q

end AOB
